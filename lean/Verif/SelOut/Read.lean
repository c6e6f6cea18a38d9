import Verif.SelOut.Thread

/-!
# C26: `GetSelectedOutput`
-/

namespace Verif.SelOut

open Verif.OMap Verif.Grid Verif.Mapping

/-! ## Helper lemmas -/

theorem doublizeCol_eq (f : Nat → Var) (n : Nat) (col : List Var)
    (h : ∀ i, i < n → col[i]? = some (f i)) :
    doublizeCol n col = .ok ((List.range n).map (fun i => (f i).toDouble)) := by
  unfold doublizeCol
  have gen : ∀ m, m ≤ n → (List.range m).foldlM (fun ds (i : Nat) => do
      let v ← idx col (i : Int)
      Out.ok (ds ++ [v.toDouble])) [] = .ok ((List.range m).map (fun i => (f i).toDouble)) := by
    intro m
    induction m with
    | zero => intro _; rfl
    | succ m ih =>
      intro hm
      rw [List.range_succ, List.foldlM_append, ih (by omega)]
      simp [idx_nat (h m (by omega))]
  exact gen n (Nat.le_refl _)

theorem doublize_eq {t : Table} {a : Abs} (hr : Rel t a) :
    ∃ buf, t.doublize = .ok buf ∧ ∀ (c r : Nat) (h : Name) (row : Row), a.heads[c]? = some h →
      a.done[r]? = some row → buf[c * t.nRow + r]? = some (Row.value row h).toDouble := by
  unfold Table.doublize
  rw [hr.heads, hr.nrow]
  have gen : ∀ m, m ≤ a.heads.length → ∃ buf, (List.range m).foldlM (fun ds (j : Nat) => do
      let col ← idx t.cols (j : Int)
      let c ← doublizeCol a.done.length col
      Out.ok (ds ++ c)) [] = .ok buf ∧ buf.length = m * a.done.length ∧
      ∀ (c r : Nat) (h : Name) (row : Row), c < m → a.heads[c]? = some h →
        a.done[r]? = some row → buf[c * a.done.length + r]? = some (Row.value row h).toDouble := by
    intro m
    induction m with
    | zero => intro _; exact ⟨[], rfl, by simp, by intro c r h row hc; omega⟩
    | succ m ih =>
      intro hm
      obtain ⟨buf, h1, h2, h3⟩ := ih (by omega)
      have hh : a.heads[m]? = some a.heads[m] := List.getElem?_eq_getElem (by omega)
      have hlt : m < t.cols.length := by rw [hr.clen]; omega
      obtain ⟨col, hcol⟩ : ∃ col, t.cols[m]? = some col := ⟨_, List.getElem?_eq_getElem hlt⟩
      have hv : ∀ i, i < a.done.length → col[i]? = some (match a.done[i]? with
          | some row => Row.value row a.heads[m]
          | none => .empty) := by
        intro i hi
        have hrow : a.done[i]? = some a.done[i] := List.getElem?_eq_getElem hi
        rw [hrow]
        exact (hr.col m _ col hh hcol).1 i _ hrow
      have e := doublizeCol_eq _ a.done.length col hv
      refine ⟨buf ++ (List.range a.done.length).map (fun i => Var.toDouble (match a.done[i]? with
          | some row => Row.value row a.heads[m]
          | none => .empty)), ?_, ?_, ?_⟩
      · rw [List.range_succ, List.foldlM_append, h1]
        simp only [Out.ok_bind, List.foldlM_cons, List.foldlM_nil, idx_nat hcol, e, Out.pure_eq]
      · simp [h2, Nat.succ_mul]
      · intro c r h row hc hh' hrow
        have hrlt := (List.getElem?_eq_some_iff.mp hrow).1
        rcases Nat.lt_or_ge c m with hlt' | hge
        · have : c * a.done.length + r < buf.length := by
            rw [h2]
            calc c * a.done.length + r < c * a.done.length + a.done.length := by omega
              _ = (c + 1) * a.done.length := by rw [Nat.succ_mul]
              _ ≤ m * a.done.length := Nat.mul_le_mul_right _ hlt'
          rw [List.getElem?_append_left this]
          exact h3 c r h row hlt' hh' hrow
        · have hcm : c = m := by omega
          subst hcm
          rw [List.getElem?_append_right (by omega), h2,
            show c * a.done.length + r - c * a.done.length = r by omega]
          rw [List.getElem?_map, List.getElem?_range hrlt]
          rw [hh] at hh'
          simp only [Option.some.injEq] at hh'
          simp [hrow, hh']
  obtain ⟨buf, h1, _, h3⟩ := gen a.heads.length (Nat.le_refl _)
  exact ⟨buf, h1, fun c r h row hc hrow =>
    h3 c r h row (List.getElem?_eq_some_iff.mp hc).1 hc hrow⟩

/-- One write after another. -/
def writeList (so : List ℚ) (L : List (Nat × ℚ)) : Out (List ℚ) :=
  L.foldlM (fun so p => writeAt so p.1 p.2) so

theorem writeList_append (so : List ℚ) (L M : List (Nat × ℚ)) :
    writeList so (L ++ M) = writeList so L >>= fun so => writeList so M := by
  unfold writeList
  rw [List.foldlM_append]

/-- A loop whose body is a list of writes is a list of writes. -/
theorem foldlM_writes {ι : Type} (xs : List ι) (f : List ℚ → ι → Out (List ℚ))
    (P : ι → Nat × ℚ → Prop)
    (h : ∀ x ∈ xs, ∃ L, (∀ so, f so x = writeList so L) ∧ ∀ p, p ∈ L ↔ P x p) :
    ∃ L, (∀ so, xs.foldlM f so = writeList so L) ∧ ∀ p, p ∈ L ↔ ∃ x ∈ xs, P x p := by
  induction xs with
  | nil => exact ⟨[], fun so => rfl, by simp⟩
  | cons x xs ih =>
    obtain ⟨L1, h1, h2⟩ := h x List.mem_cons_self
    obtain ⟨L2, h3, h4⟩ := ih (fun y hy => h y (List.mem_cons_of_mem _ hy))
    refine ⟨L1 ++ L2, ?_, ?_⟩
    · intro so
      rw [List.foldlM_cons, writeList_append, h1]
      congr 1
      funext so
      exact h3 so
    · intro p
      rw [List.mem_append, h2, h4]
      simp

theorem writeList_spec (so : List ℚ) (L : List (Nat × ℚ)) (hL : ∀ p ∈ L, p.1 < so.length) :
    ∃ so', writeList so L = .ok so' ∧ so'.length = so.length ∧
      (∀ i v, (i, v) ∈ L → (∀ w, (i, w) ∈ L → w = v) → so'[i]? = some v) ∧
      ∀ i, (∀ w, (i, w) ∉ L) → so'[i]? = so[i]? := by
  induction L generalizing so with
  | nil => exact ⟨so, rfl, rfl, by simp, fun _ _ => rfl⟩
  | cons p L ih =>
    obtain ⟨a, x⟩ := p
    have ha := hL (a, x) List.mem_cons_self
    obtain ⟨so', h1, h2, h3, h4⟩ := ih (so.set a x) (by
      intro p hp
      rw [List.length_set]
      exact hL p (List.mem_cons_of_mem _ hp))
    refine ⟨so', ?_, by rw [h2, List.length_set], ?_, ?_⟩
    · unfold writeList
      rw [List.foldlM_cons]
      simp only [writeAt, ha, if_true, Out.ok_bind]
      exact h1
    · intro i v hm hall
      by_cases hin : ∃ w, (i, w) ∈ L
      · obtain ⟨w, hw⟩ := hin
        have := hall w (List.mem_cons_of_mem _ hw)
        subst this
        exact h3 i w hw (fun u hu => hall u (List.mem_cons_of_mem _ hu))
      · rw [h4 i (fun w hw => hin ⟨w, hw⟩)]
        rcases List.mem_cons.mp hm with e | e
        · simp only [Prod.mk.injEq] at e
          obtain ⟨rfl, rfl⟩ := e
          rw [List.getElem?_set_self ha]
        · exact absurd ⟨v, e⟩ hin
    · intro i hno
      rw [h4 i (fun w hw => hno w (List.mem_cons_of_mem _ hw)), List.getElem?_set_ne]
      intro e
      subst e
      exact hno x List.mem_cons_self

/-- The writes of one thread. -/
theorem writeThread_writes (nxyz : Nat) (backward : List (List Nat)) (nUser : Int)
    (m : SMap Int Table) (t : Table) (a : Abs) (hf : find m nUser = some t) (hr : Rel t a)
    (start : Nat) (hstart : start + a.done.length ≤ backward.length) :
    ∃ L, (∀ so, writeThread nxyz a.heads.length backward nUser (so, start) m =
        (writeList so L >>= fun so => .ok (so, start + a.done.length))) ∧
      ∀ p, p ∈ L ↔ ∃ (c r i : Nat) (h : Name) (row : Row) (cells : List Nat),
        a.heads[c]? = some h ∧ a.done[r]? = some row ∧ backward[start + r]? = some cells ∧
        i ∈ cells ∧ p = (c * nxyz + i, (Row.value row h).toDouble) := by
  obtain ⟨buf, hb1, hb2⟩ := doublize_eq hr
  have entry : ∀ c ∈ List.range a.heads.length, ∀ r ∈ List.range t.nRow,
      ∃ L, (∀ so, writeEntry nxyz backward buf c r t.nRow start so = writeList so L) ∧
        ∀ p, p ∈ L ↔ ∃ (i : Nat) (h : Name) (row : Row) (cells : List Nat),
          a.heads[c]? = some h ∧ a.done[r]? = some row ∧ backward[start + r]? = some cells ∧
          i ∈ cells ∧ p = (c * nxyz + i, (Row.value row h).toDouble) := by
    intro c hc r hrr
    rw [List.mem_range] at hc hrr
    rw [hr.nrow] at hrr
    have hh : a.heads[c]? = some a.heads[c] := List.getElem?_eq_getElem hc
    have hrow : a.done[r]? = some a.done[r] := List.getElem?_eq_getElem hrr
    have hcell : backward[start + r]? = some (backward[start + r]'(by omega)) :=
      List.getElem?_eq_getElem (by omega)
    have hbv := hb2 c r _ _ hh hrow
    obtain ⟨L, l1, l2⟩ := foldlM_writes (backward[start + r]'(by omega))
      (fun so i => do
        let v ← idx buf ((c * t.nRow + r : Nat) : Int)
        writeAt so (c * nxyz + i) v)
      (fun i p => p = (c * nxyz + i, (Row.value a.done[r] a.heads[c]).toDouble))
      (by
        intro i _
        refine ⟨[(c * nxyz + i, (Row.value a.done[r] a.heads[c]).toDouble)], ?_, by simp⟩
        intro so
        rw [idx_nat hbv]
        simp only [writeList, List.foldlM_cons, List.foldlM_nil, bind_pure, Out.ok_bind])
    refine ⟨L, ?_, ?_⟩
    · intro so
      unfold writeEntry
      rw [idx_nat hcell]
      exact l1 so
    · intro p
      rw [l2, hh, hrow, hcell]
      constructor
      · rintro ⟨i, hi, e⟩
        exact ⟨i, _, _, _, rfl, rfl, rfl, hi, e⟩
      · rintro ⟨i, h, row, cells, e1, e2, e3, hi, e⟩
        simp only [Option.some.injEq] at e1 e2 e3
        subst e1; subst e2; subst e3
        exact ⟨i, hi, e⟩
  obtain ⟨L, l1, l2⟩ := foldlM_writes (List.range a.heads.length)
    (fun so (icol : Nat) => (List.range t.nRow).foldlM (fun so (irow : Nat) =>
      writeEntry nxyz backward buf icol irow t.nRow start so) so) _
    (fun c hc => foldlM_writes (List.range t.nRow) _ _ (entry c hc))
  refine ⟨L, ?_, ?_⟩
  · intro so
    unfold writeThread
    rw [hf]
    simp only [hb1, Out.ok_bind]
    rw [l1, hr.nrow]
  · intro p
    rw [l2]
    constructor
    · rintro ⟨c, _, r, _, i, h, row, cells, e⟩
      exact ⟨c, r, i, h, row, cells, e⟩
    · rintro ⟨c, r, i, h, row, cells, e1, e2, e⟩
      exact ⟨c, List.mem_range.mpr (List.getElem?_eq_some_iff.mp e1).1, r,
        List.mem_range.mpr (by rw [hr.nrow]; exact (List.getElem?_eq_some_iff.mp e2).1),
        i, h, row, cells, e1, e2, e⟩

/-- The writes of all threads together. -/
theorem threads_writes (nxyz : Nat) (backward : List (List Nat)) (nUser : Int)
    (H : List Name) (workers : List (SMap Int Table)) (abss : List Abs)
    (hrel : List.Forall₂ (fun m a => ∃ t, find m nUser = some t ∧ Rel t a ∧ a.heads = H)
      workers abss) (start : Nat)
    (hlen : start + (abss.flatMap Abs.done).length ≤ backward.length) :
    ∃ L fin, (∀ so, workers.foldlM (writeThread nxyz H.length backward nUser) (so, start) =
        (writeList so L >>= fun so => .ok (so, fin))) ∧
      ∀ p, p ∈ L ↔ ∃ (c r i : Nat) (h : Name) (row : Row) (cells : List Nat),
        H[c]? = some h ∧ (abss.flatMap Abs.done)[r]? = some row ∧
        backward[start + r]? = some cells ∧
        i ∈ cells ∧ p = (c * nxyz + i, (Row.value row h).toDouble) := by
  induction hrel generalizing start with
  | nil => exact ⟨[], start, fun so => rfl, by simp⟩
  | @cons m a workers abss h1 _ ih =>
    obtain ⟨t, t1, t2, t3⟩ := h1
    rw [List.flatMap_cons, List.length_append] at hlen
    obtain ⟨L1, l1, l2⟩ := writeThread_writes nxyz backward nUser m t a t1 t2 start (by omega)
    obtain ⟨L2, fin, l3, l4⟩ := ih (start + a.done.length) (by omega)
    rw [t3] at l1
    refine ⟨L1 ++ L2, fin, ?_, ?_⟩
    · intro so
      rw [List.foldlM_cons, l1, writeList_append]
      cases writeList so L1 with
      | ok so1 => simp only [Out.ok_bind]; exact l3 so1
      | throw => rfl
      | ub => rfl
    · intro p
      rw [List.mem_append, l2, l4, t3]
      constructor
      · rintro (⟨c, r, i, h, row, cells, e1, e2, e⟩ | ⟨c, r, i, h, row, cells, e1, e2, e3, e⟩)
        · refine ⟨c, r, i, h, row, cells, e1, ?_, e⟩
          rw [List.flatMap_cons, List.getElem?_append_left (List.getElem?_eq_some_iff.mp e2).1]
          exact e2
        · refine ⟨c, a.done.length + r, i, h, row, cells, e1, ?_, ?_, e⟩
          · rw [List.flatMap_cons, List.getElem?_append_right (by omega)]
            rw [show a.done.length + r - a.done.length = r by omega]
            exact e2
          · rw [← Nat.add_assoc]; exact e3
      · rintro ⟨c, r, i, h, row, cells, e1, e2, e3, e⟩
        rw [List.flatMap_cons] at e2
        rcases Nat.lt_or_ge r a.done.length with hlt | hge
        · rw [List.getElem?_append_left hlt] at e2
          exact .inl ⟨c, r, i, h, row, cells, e1, e2, e3, e⟩
        · rw [List.getElem?_append_right hge] at e2
          refine .inr ⟨c, r - a.done.length, i, h, row, cells, e1, e2, ?_, e⟩
          rw [show start + a.done.length + (r - a.done.length) = start + r by omega]
          exact e3

theorem resizeQ_length (so : List ℚ) (n : Nat) : (resizeQ so n).length = n := by
  unfold resizeQ
  simp
  omega

theorem getSelectedOutput_spec {g : List Int} {s : MapState} (hcon : Consistent g s)
    (hg : g.length = s.nxyz) (nUser : Int) (hn : 0 ≤ nUser) (H : List Name)
    (workers : List (SMap Int Table)) (hw : workers ≠ []) (abss : List Abs)
    (hrel : List.Forall₂ (fun m a => ∃ t, find m nUser = some t ∧ Rel t a ∧ a.heads = H)
      workers abss)
    (hlen : (abss.flatMap Abs.done).length = s.backward.length) (so : List ℚ) :
    ∃ so', getSelectedOutput s.nxyz s.backward workers nUser so = .ok so' ∧
      so'.length = s.nxyz * H.length ∧
      ∀ (i c : Nat) (x : Int) (h : Name), g[i]? = some x → H[c]? = some h →
        (x < 0 → so'[c * s.nxyz + i]? = (resizeQ so (s.nxyz * H.length))[c * s.nxyz + i]?) ∧
        (0 ≤ x → ∃ row, (abss.flatMap Abs.done)[x.toNat]? = some row ∧
          so'[c * s.nxyz + i]? = some (Row.value row h).toDouble) := by
  obtain ⟨L, fin, l1, l2⟩ := threads_writes s.nxyz s.backward nUser H workers abss hrel 0 (by omega)
  have hback : ∀ (r : Nat) (cells : List Nat), s.backward[r]? = some cells →
      ∀ i, i ∈ cells ↔ g[i]? = some (r : Int) := by
    intro r cells hc
    exact (hcon.back r cells hc).2.2
  have hpos : ∀ (c i : Nat), c < H.length → i < s.nxyz → c * s.nxyz + i < s.nxyz * H.length := by
    intro c i hc hi
    calc c * s.nxyz + i < c * s.nxyz + s.nxyz := by omega
      _ = (c + 1) * s.nxyz := by rw [Nat.succ_mul]
      _ ≤ H.length * s.nxyz := Nat.mul_le_mul_right _ hc
      _ = s.nxyz * H.length := Nat.mul_comm _ _
  have hinj : ∀ (c i c' i' : Nat), i < s.nxyz → i' < s.nxyz →
      c * s.nxyz + i = c' * s.nxyz + i' → c = c' ∧ i = i' := by
    intro c i c' i' hi hi' e
    have e1 : (c * s.nxyz + i) / s.nxyz = c := by
      rw [Nat.mul_comm, Nat.mul_add_div (by omega), Nat.div_eq_of_lt hi]; rfl
    have e2 : (c' * s.nxyz + i') / s.nxyz = c' := by
      rw [Nat.mul_comm, Nat.mul_add_div (by omega), Nat.div_eq_of_lt hi']; rfl
    have : c = c' := by rw [← e1, ← e2, e]
    subst this
    exact ⟨rfl, by omega⟩
  obtain ⟨so', w1, w2, w3, w4⟩ := writeList_spec (resizeQ so (s.nxyz * H.length)) L (by
    intro p hp
    obtain ⟨c, r, i, h, row, cells, e1, e2, e3, e4, rfl⟩ := (l2 p).mp hp
    rw [Nat.zero_add] at e3
    have hgi := (hback r cells e3 i).mp e4
    rw [resizeQ_length]
    exact hpos c i (List.getElem?_eq_some_iff.mp e1).1
      (by rw [← hg]; exact (List.getElem?_eq_some_iff.mp hgi).1))
  refine ⟨so', ?_, by rw [w2, resizeQ_length], ?_⟩
  · cases hrel with
    | nil => exact absurd rfl hw
    | cons h1 h2 =>
      obtain ⟨t, t1, t2, t3⟩ := h1
      unfold getSelectedOutput
      rw [if_neg (by omega)]
      simp only [t1, Table.colCount, t2.heads, t3]
      rw [l1, w1]
      rfl
  · intro i c x h hgi hHc
    have hi : i < s.nxyz := by rw [← hg]; exact (List.getElem?_eq_some_iff.mp hgi).1
    constructor
    · intro hx
      apply w4
      intro w hw'
      obtain ⟨c', r, i', h', row, cells, e1, e2, e3, e4, e5⟩ := (l2 _).mp hw'
      rw [Nat.zero_add] at e3
      have hgi' := (hback r cells e3 i').mp e4
      have hi' : i' < s.nxyz := by rw [← hg]; exact (List.getElem?_eq_some_iff.mp hgi').1
      simp only [Prod.mk.injEq] at e5
      obtain ⟨_, rfl⟩ := hinj c i c' i' hi hi' e5.1
      rw [hgi] at hgi'
      simp only [Option.some.injEq] at hgi'
      omega
    · intro hx
      have hxlt : x.toNat < s.backward.length := by
        have := hcon.count_max.1 x (List.mem_of_getElem? hgi)
        rw [hcon.back_len]
        omega
      have hrow : (abss.flatMap Abs.done)[x.toNat]? =
          some ((abss.flatMap Abs.done)[x.toNat]'(by omega)) := List.getElem?_eq_getElem (by omega)
      have hcell : s.backward[x.toNat]? = some s.backward[x.toNat] := List.getElem?_eq_getElem hxlt
      refine ⟨_, hrow, ?_⟩
      apply w3
      · rw [l2]
        refine ⟨c, x.toNat, i, h, _, _, hHc, hrow, by rw [Nat.zero_add]; exact hcell, ?_, rfl⟩
        rw [hback _ _ hcell, hgi]
        simp only [Option.some.injEq]
        omega
      · intro w hw'
        obtain ⟨c', r, i', h', row, cells, e1, e2, e3, e4, e5⟩ := (l2 _).mp hw'
        rw [Nat.zero_add] at e3
        have hgi' := (hback r cells e3 i').mp e4
        have hi' : i' < s.nxyz := by rw [← hg]; exact (List.getElem?_eq_some_iff.mp hgi').1
        simp only [Prod.mk.injEq] at e5
        obtain ⟨rfl, rfl⟩ := hinj c i c' i' hi hi' e5.1
        rw [hgi] at hgi'
        simp only [Option.some.injEq] at hgi'
        have hr : r = x.toNat := by omega
        subst hr
        rw [hHc] at e1
        rw [hrow] at e2
        simp only [Option.some.injEq] at e1 e2
        rw [e5.2, ← e1, ← e2]

/-! ## The property -/

open Verif.Ranges Verif.Transfer

/-- The threads of a run: each ran its range of the cells, `out x` being what happened to cell
`x`. -/
def Threads (dummy : SMap Int Table) (out : Int → CellRun) (ranges : List (Int × Int))
    (workers : List (SMap Int Table)) : Prop :=
  List.Forall₂ (fun r m => runThread dummy ((rangeCells r).map out) = .ok m) ranges workers

/-- The cells add no columns to those of the dummy run. -/
def NoLateColumns (nU : Int) (hs : List Name) : CellRun → Prop
  | .wet m => ∀ tb, find m nU = some tb → ∀ h ∈ tb.heads, h ∈ hs
  | _ => True

/-- **C26, the statement.** -/
def OwnersRight (g : List Int) (s : MapState) (out : Int → CellRun) (nU : Int)
    (workers : List (SMap Int Table)) (so : List ℚ) : Prop :=
  ∃ so' w0 t0, getSelectedOutput s.nxyz s.backward workers nU so = .ok so' ∧
    workers[0]? = some w0 ∧ find w0 nU = some t0 ∧ so'.length = s.nxyz * t0.colCount ∧
    ∀ (i c : Nat) (x : Int) (h : Name), g[i]? = some x → t0.get 0 c = .ok (.val (.str h)) →
      (0 ≤ x → ∃ v y, Shows nU h v (out x) ∧ Number v y ∧ so'[c * s.nxyz + i]? = some y) ∧
      (x < 0 → so'[c * s.nxyz + i]? = some ((so[c * s.nxyz + i]?).getD 0))

theorem number_toDouble (v : Var) : Number v v.toDouble := by
  cases v <;> rfl

theorem contig_cells (rs : List (Int × Int)) (a b : Int) (h : Contig a b rs) :
    a ≤ b ∧ rs.flatMap rangeCells = (List.range (b - a).toNat).map (fun n : Nat => a + n) := by
  induction rs generalizing a with
  | nil =>
    simp only [Contig] at h
    subst h
    simp
  | cons r rs ih =>
    obtain ⟨h1, h2, h3⟩ := h
    obtain ⟨h4, h5⟩ := ih _ h3
    subst h1
    refine ⟨by omega, ?_⟩
    rw [List.flatMap_cons, h5, show (b - r.1).toNat = (r.2 - r.1 + 1).toNat + (b - (r.2 + 1)).toNat by
      omega, List.range_add, List.map_append, List.map_map]
    unfold rangeCells
    congr 1
    apply List.map_congr_left
    intro n _
    simp only [Function.comp_def]
    push_cast
    omega

theorem heads_no_late {a : Abs} {rows : List Row} (ha : a.heads ≠ [])
    (h : ∀ row ∈ rows, ∀ x ∈ row, x.1 ∈ a.heads) : (rows.foldl rowStep a).heads = a.heads := by
  have one : ∀ (row : Row) (b : Abs), (∀ x ∈ row, x.1 ∈ b.heads) →
      (rowStep b row).heads = b.heads := by
    intro row b hb
    unfold rowStep
    rw [List.foldl_append]
    have : ∀ (row : Row) (b : Abs), (∀ x ∈ row, x.1 ∈ b.heads) →
        ((row.map (fun x => Op.push x.1 x.2)).foldl Abs.step b).heads = b.heads := by
      intro row
      induction row with
      | nil => intro b _; rfl
      | cons x row ih =>
        intro b hb
        rw [List.map_cons, List.foldl_cons]
        have e : (b.step (.push x.1 x.2)).heads = b.heads := by
          simp only [Abs.step]
          rw [if_pos (hb x List.mem_cons_self)]
        rw [ih _ (by rw [e]; exact fun y hy => hb y (List.mem_cons_of_mem _ hy)), e]
    have e := this row b hb
    generalize (row.map (fun x => Op.push x.1 x.2)).foldl Abs.step b = z at *
    simp only [List.foldl_cons, List.foldl_nil, Abs.step]
    split <;> exact e
  induction rows generalizing a with
  | nil => rfl
  | cons row rows ih =>
    have e := one row a (h row List.mem_cons_self)
    rw [List.foldl_cons, ih (by rw [e]; exact ha)
      (by rw [e]; exact fun r hr => h r (List.mem_cons_of_mem _ hr)), e]

theorem cellRow_keys {nU : Int} {row : Row} {cell : CellRun} {hs : List Name}
    (h : CellRow nU row cell) (hl : NoLateColumns nU hs cell) : ∀ x ∈ row, x.1 ∈ hs := by
  cases cell with
  | dry => simp only [CellRow] at h; subst h; simp
  | failed m => simp only [CellRow] at h; subst h; simp
  | wet m =>
    obtain ⟨tb, a, h1, h2, h3⟩ := h
    rcases h3 with ⟨_, h5⟩ | ⟨row0, _, _, h5⟩
    · subst h5; simp
    · subst h5
      intro x hx
      obtain ⟨y, hy, rfl⟩ := List.mem_map.mp hx
      exact hl tb h1 y (by rw [h2.heads]; exact hy)

/-- **C26, partial.** When the dummy run gives at least one column and the cells add none,
`GetSelectedOutput` puts the value of each reaction cell, for each heading of worker 0, at
all its grid cells, for every mapping and every partition into workers. Grid cells without a
reaction cell keep what the array held, or 0 if it was shorter. Missing for the full statement:
columns that appear only when a cell is run (`owners_violated`). -/
theorem owners_partial {g : List Int} {s : MapState} (hcon : Consistent g s)
    (hg : g.length = s.nxyz) (hth : 0 < s.nthreads) (dummy : SMap Int Table) (hd : Sorted dummy)
    (out : Int → CellRun)
    (hgood : ∀ x, GoodCell (keys dummy) (out x)) (nU : Int) (hnU : 0 ≤ nU) (tb : Table)
    (htb : find dummy nU = some tb) (hcol : tb.colCount ≠ 0)
    (hlate : ∀ x, NoLateColumns nU tb.heads (out x)) (workers : List (SMap Int Table))
    (hthreads : Threads dummy out s.ranges workers) (so : List ℚ) :
    OwnersRight g s out nU workers so := by
  obtain ⟨d1, d2, d3⟩ := dAbs_eq tb.heads
  have hne : (dAbs tb.heads).heads ≠ [] := by
    intro h0
    unfold Table.colCount at hcol
    cases hh : tb.heads with
    | nil => rw [hh] at hcol; simp at hcol
    | cons x xs =>
      have := (d3 x).mpr (by rw [hh]; simp)
      rw [h0] at this
      simp at this
  -- each thread
  have hone : ∀ r m, runThread dummy ((rangeCells r).map out) = .ok m →
      ∃ a : Abs, (∃ t, find m nU = some t ∧ Rel t a ∧ a.heads = (dAbs tb.heads).heads) ∧
        List.Forall₂ (fun x row => ∀ h, Shows nU h (Row.value row h) (out x)) (rangeCells r)
          a.done := by
    intro r m hm
    obtain ⟨c, h1, h2⟩ := runThread_spec dummy hd ((rangeCells r).map out) (by
      intro cell hc
      obtain ⟨x, _, rfl⟩ := List.mem_map.mp hc
      exact hgood x)
    rw [hm] at h1
    cases h1
    obtain ⟨t, rows, h3, h4, h5⟩ := h2 nU tb htb
    obtain ⟨rows', e1, e2, _⟩ := rows_done hne d2 rows
    rw [d1, List.nil_append] at e1
    rw [List.forall₂_map_left_iff] at h5
    refine ⟨_, ⟨t, h3, h4, ?_⟩, ?_⟩
    · apply heads_no_late hne
      intro row hrow x hx
      obtain ⟨n, hn⟩ := List.getElem?_of_mem hrow
      obtain ⟨hlt, hn'⟩ := List.getElem?_eq_some_iff.mp hn
      have := (List.forall₂_iff_get.mp h5).2 n (by rw [(h5.length_eq)]; exact hlt) hlt
      simp only [List.get_eq_getElem, hn'] at this
      exact (d3 _).mpr (cellRow_keys this (hlate _) x hx)
    · rw [e1]
      have l1 := h5.length_eq
      have l2 := e2.length_eq
      rw [List.forall₂_iff_get]
      refine ⟨by omega, fun i hi hi' h => ?_⟩
      have k1 := (List.forall₂_iff_get.mp h5).2 i hi (by omega)
      have k2 := (List.forall₂_iff_get.mp e2).2 i (by omega) hi' h
      rw [k2]
      exact cellRow_shows k1 h
  -- all threads
  have hall : ∃ abss : List Abs,
      List.Forall₂ (fun m a => ∃ t, find m nU = some t ∧ Rel t a ∧
        a.heads = (dAbs tb.heads).heads) workers abss ∧
      List.Forall₂ (fun x row => ∀ h, Shows nU h (Row.value row h) (out x))
        (s.ranges.flatMap rangeCells) (abss.flatMap Abs.done) := by
    unfold Threads at hthreads
    clear hcon
    generalize s.ranges = rs at hthreads
    induction hthreads with
    | nil => exact ⟨[], .nil, .nil⟩
    | @cons r m rs ms h1 _ ih =>
      obtain ⟨abss, i1, i2⟩ := ih
      obtain ⟨a, a1, a2⟩ := hone r m h1
      refine ⟨a :: abss, .cons a1 i1, ?_⟩
      rw [List.flatMap_cons, List.flatMap_cons]
      exact List.rel_append a2 i2
  obtain ⟨abss, b1, b2⟩ := hall
  obtain ⟨_, hcells⟩ := contig_cells _ _ _ hcon.ranges.2
  rw [hcells] at b2
  have hlen := b2.length_eq
  simp only [List.length_map, List.length_range] at hlen
  have hw : workers ≠ [] := by
    intro h0
    have hl := hthreads.length_eq
    have hk := hcon.ranges.1
    rw [h0] at hl
    simp at hl
    rw [hl] at hk
    simp at hk
    omega
  obtain ⟨so', s1, s2, s3⟩ := getSelectedOutput_spec hcon hg nU hnU _ workers hw abss b1
    (by rw [hcon.back_len]; omega) so
  cases b1 with
  | nil => exact absurd rfl hw
  | @cons w0 a0 ws as h1 h2 =>
    obtain ⟨t0, t1, t2, t3⟩ := h1
    refine ⟨so', w0, t0, s1, rfl, t1, by rw [s2, Table.colCount, t2.heads, t3], ?_⟩
    intro i c x h hgi hh
    obtain ⟨_, hh'⟩ := (get_head_iff t2 _ _).mp hh
    rw [t3] at hh'
    simp only [Int.toNat_natCast] at hh'
    obtain ⟨q1, q2⟩ := s3 i c x h hgi hh'
    constructor
    · intro hx
      obtain ⟨row, r1, r2⟩ := q2 hx
      obtain ⟨hlt, r1'⟩ := List.getElem?_eq_some_iff.mp r1
      have := (List.forall₂_iff_get.mp b2).2 x.toNat (by simp; omega) hlt
      simp only [List.get_eq_getElem, List.getElem_map, List.getElem_range, r1'] at this
      refine ⟨_, _, ?_, number_toDouble _, r2⟩
      have hx0 : (0 : Int) + (x.toNat : Int) = x := by omega
      rw [hx0] at this
      exact this h
    · intro hx
      rw [q1 hx]
      have hi : i < s.nxyz := by rw [← hg]; exact (List.getElem?_eq_some_iff.mp hgi).1
      have hc : c < (dAbs tb.heads).heads.length := (List.getElem?_eq_some_iff.mp hh').1
      have hp : c * s.nxyz + i < s.nxyz * (dAbs tb.heads).heads.length := by
        calc c * s.nxyz + i < c * s.nxyz + s.nxyz := by omega
          _ = (c + 1) * s.nxyz := by rw [Nat.succ_mul]
          _ ≤ (dAbs tb.heads).heads.length * s.nxyz := Nat.mul_le_mul_right _ hc
          _ = s.nxyz * (dAbs tb.heads).heads.length := Nat.mul_comm _ _
      unfold resizeQ
      generalize c * s.nxyz + i = p at hp
      generalize s.nxyz * (dAbs tb.heads).heads.length = n at hp
      rcases Nat.lt_or_ge p so.length with hlt | hge
      · rw [List.getElem?_append_left (by simp; omega), List.getElem?_take_of_lt hp,
          List.getElem?_eq_getElem hlt]
        rfl
      · rw [List.getElem?_append_right (by simp; omega), List.getElem?_eq_none hge,
          List.getElem?_replicate, if_pos (by simp; omega)]
        rfl

/-! ### Witness -/

/-- Dummy run with one column. -/
def readDummy : SMap Int Table := [(1, ⟨1, [['q']], [[.dbl 0]], [(['q'], 0)]⟩)]

/-- A cell that adds column `p`. -/
def lateCell : Table := ⟨1, [['q'], ['p']], [[.dbl 1], [.dbl 5]], [(['p'], 1), (['q'], 0)]⟩

/-- A cell with the one column. -/
def plainCell (x : ℚ) : Table := ⟨1, [['q']], [[.dbl x]], [(['q'], 0)]⟩

/-- Cell 0 adds a column, cell 1 does not. -/
def lateOut : Int → CellRun := fun x => if x = 0 then .wet [(1, lateCell)] else .wet [(1, plainCell 2)]

/-- No cell adds a column. -/
def plainOut : Int → CellRun := fun x => .wet [(1, plainCell (x + 2))]

/-- Three grid cells, two reaction cells, two workers. -/
def readMap : MapState :=
  { nxyz := 3, nthreads := 2, count := 2, backward := [[0], [2]], forward := [0, -1, 1]
    ranges := [(0, 0), (1, 1)] }

theorem readMap_consistent : Consistent [0, -1, 1] readMap :=
  (createMapping_consistent { readMap with backward := [], forward := [], ranges := [] } readMap
    [0, -1, 1] (by decide +kernel)).1

theorem plain_good (x : ℚ) : ∃ ops, CStrings ops ∧ Made ops (plainCell x) := by
  refine ⟨[.push ['q'] (.dbl x), .endRow], ?_, rfl⟩
  intro a v hm
  simp only [List.mem_cons, Op.push.injEq, List.not_mem_nil, or_false, reduceCtorEq] at hm
  obtain ⟨rfl, rfl⟩ := hm
  simp [CString, Var.Ok]

theorem good_single (tb : Table) (h : ∃ ops, CStrings ops ∧ Made ops tb)
    (hn : tb.nRow = if tb.colCount = 0 then 0 else 1) :
    GoodCell (keys readDummy) (.wet [(1, tb)]) := by
  refine ⟨by simp [Sorted], rfl, ?_⟩
  intro k tb' hk
  simp only [find] at hk
  split at hk
  · simp only [Option.some.injEq] at hk
    subst hk
    obtain ⟨ops, h1, h2⟩ := h
    exact ⟨ops, h1, h2, hn⟩
  · simp at hk

theorem late_good (x : Int) : GoodCell (keys readDummy) (lateOut x) := by
  unfold lateOut
  split
  · refine good_single lateCell ⟨[.push ['q'] (.dbl 1), .push ['p'] (.dbl 5), .endRow], ?_,
      by unfold Made; decide +kernel⟩ (by decide)
    intro a v hm
    simp only [List.mem_cons, Op.push.injEq, List.not_mem_nil, or_false, reduceCtorEq] at hm
    rcases hm with ⟨rfl, rfl⟩ | ⟨rfl, rfl⟩ <;> simp [CString, Var.Ok]
  · exact good_single _ (plain_good 2) (by decide)

/-- **C26 is violated.** The column count comes from worker 0 alone. When a cell of worker 0
adds a column that no cell of worker 1 adds, reading worker 1 runs past the end of its
values. -/
theorem owners_violated :
    ¬ ∀ (g : List Int) (s : MapState) (dummy : SMap Int Table) (out : Int → CellRun) (nU : Int)
        (tb : Table) (workers : List (SMap Int Table)) (so : List ℚ),
      Consistent g s → g.length = s.nxyz → Sorted dummy →
      (∀ x, GoodCell (keys dummy) (out x)) → 0 ≤ nU → find dummy nU = some tb →
      tb.colCount ≠ 0 → Threads dummy out s.ranges workers → OwnersRight g s out nU workers so := by
  intro h
  obtain ⟨w, hw⟩ : ∃ w, (runThread readDummy [lateOut 0]) = .ok w :=
    ⟨[(1, ⟨1, [['q'], ['p']], [[.dbl 1], [.dbl 5]], [(['p'], 1), (['q'], 0)]⟩)], by decide +kernel⟩
  obtain ⟨w', hw'⟩ : ∃ w, (runThread readDummy [lateOut 1]) = .ok w :=
    ⟨[(1, ⟨1, [['q']], [[.dbl 2]], [(['q'], 0)]⟩)], by decide +kernel⟩
  obtain ⟨so', _, _, h1, _⟩ := h [0, -1, 1] readMap readDummy lateOut 1 (plainCell 0) [w, w'] []
    readMap_consistent rfl (by simp [Sorted, readDummy]) late_good (by decide) rfl (by decide)
    (.cons hw (.cons hw' .nil))
  have key : (match runThread readDummy [lateOut 0], runThread readDummy [lateOut 1] with
    | .ok w, .ok w' => match getSelectedOutput readMap.nxyz readMap.backward [w, w'] 1 [] with
      | .ub => true
      | _ => false
    | _, _ => false) = true := by decide +kernel
  rw [hw, hw'] at key
  simp only [h1] at key
  simp at key

/-- Non-trivial case of `owners_partial`. -/
example : ∃ workers, Threads readDummy plainOut readMap.ranges workers ∧
    (∀ x, GoodCell (keys readDummy) (plainOut x)) ∧
    (∀ x, NoLateColumns 1 [['q']] (plainOut x)) ∧
    getSelectedOutput 3 readMap.backward workers 1 [] = .ok [2, 0, 3] := by
  refine ⟨[[(1, plainCell 2)], [(1, plainCell 3)]], .cons (by decide +kernel)
    (.cons (by decide +kernel) .nil), fun x => good_single _ (plain_good _) rfl, ?_,
    by decide +kernel⟩
  intro x tb htb h hh
  simp only [find] at htb
  split at htb
  · simp only [Option.some.injEq] at htb
    subst htb
    exact hh
  · simp at htb

end Verif.SelOut
