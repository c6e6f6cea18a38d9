import Verif.SelOut.Props
import Mathlib.Data.List.Forall2

/-!
# C24: one row for each cell
-/

namespace Verif.SelOut

open Verif.OMap Verif.Grid

/-- What row `cell` should show under heading `h` of selected output `nU`: nothing when the
cell was not run, otherwise the value the run gave, if it gave one. -/
def Shows (nU : Int) (h : Name) (v : Var) : CellRun → Prop
  | .dry => v = .empty
  | .failed _ => v = .empty
  | .wet m => ∃ tb, find m nU = some tb ∧
      ((∃ c, tb.get 0 c = .ok (.val (.str h)) ∧ tb.get 1 c = .ok (.val v)) ∨
       ((∀ c, tb.get 0 c ≠ .ok (.val (.str h))) ∧ v = .empty))

/-- A run of a cell defines the same selected outputs as the dummy run, with one row each (no
row when there are no columns). -/
def GoodCell (ks : List Int) : CellRun → Prop
  | .dry => True
  | .failed m => Sorted m ∧ keys m = ks
  | .wet m => Sorted m ∧ keys m = ks ∧ ∀ k tb, find m k = some tb →
      ∃ ops, CStrings ops ∧ Made ops tb ∧ tb.nRow = if tb.colCount = 0 then 0 else 1

/-! ## Helper lemmas -/

/-- Replacing entries of a map one after another. -/
theorem update_map (bad : Out (SMap Int Table)) (F : Int × Table → Table → Out Table)
    (m : SMap Int Table) (hm : (keys m).Nodup) (c : SMap Int Table)
    (h : ∀ p ∈ m, ∃ t t', find c p.1 = some t ∧ F p t = .ok t') :
    ∃ c', m.foldlM (fun c p =>
        match find c p.1 with
        | none => bad
        | some t => do
          let t' ← F p t
          Out.ok (OMap.insert c p.1 t')) c = .ok c' ∧
      (∀ p ∈ m, ∀ t t', find c p.1 = some t → F p t = .ok t' → find c' p.1 = some t') ∧
      ∀ k, k ∉ keys m → find c' k = find c k := by
  induction m generalizing c with
  | nil => exact ⟨c, rfl, by simp, fun k _ => rfl⟩
  | cons p m ih =>
    obtain ⟨hp, hm'⟩ := List.nodup_cons.mp hm
    obtain ⟨t, t', h1, h2⟩ := h p List.mem_cons_self
    have hne : ∀ q ∈ m, q.1 ≠ p.1 := by
      intro q hq e
      exact hp (List.mem_map.mpr ⟨q, hq, e⟩)
    obtain ⟨c', h3, h4, h5⟩ := ih hm' (OMap.insert c p.1 t') (by
      intro q hq
      rw [find_insert, if_neg (hne q hq)]
      exact h q (List.mem_cons_of_mem _ hq))
    refine ⟨c', ?_, ?_, ?_⟩
    · rw [List.foldlM_cons, h1]
      simp only [h2, Out.ok_bind]
      exact h3
    · intro q hq s s' hs hs'
      rcases List.mem_cons.mp hq with rfl | hq
      · rw [h5 q.1 hp, find_insert, if_pos rfl]
        rw [h1] at hs
        cases hs
        rw [h2] at hs'
        cases hs'
        rfl
      · exact h4 q hq s s' (by rw [find_insert, if_neg (hne q hq)]; exact hs) hs'
    · intro k hk
      have : k ≠ p.1 ∧ k ∉ keys m := by
        simpa [keys] using hk
      rw [h5 k this.2, find_insert, if_neg this.1]

theorem nodup_keys {m : SMap Int Table} (h : Sorted m) : (keys m).Nodup := by
  unfold keys
  rw [List.nodup_iff_pairwise_ne, List.pairwise_map]
  exact List.Pairwise.imp (fun hlt => ne_of_lt hlt) h

/-- Abstract table after the dummy run. -/
def dAbs (hs : List Name) : Abs := (hs.map (fun h => Op.push h .empty)).foldl Abs.step Abs.new

/-- One row pushed and finished. -/
def rowStep (a : Abs) (row : Row) : Abs :=
  (row.map (fun x => Op.push x.1 x.2) ++ [Op.endRow]).foldl Abs.step a

theorem dummyTable_rel (hs : List Name) : ∃ t, dummyTable hs = .ok t ∧ Rel t (dAbs hs) := by
  obtain ⟨t, h1, h2⟩ := rel_run rel_new (hs.map (fun h => Op.push h Var.empty))
  refine ⟨t, ?_, h2⟩
  rw [List.foldlM_map] at h1
  exact h1

theorem dummyMap_spec (m : SMap Int Table) (hm : Sorted m) :
    ∃ c, dummyMap m = .ok c ∧ ∀ k tb, find m k = some tb →
      ∃ t, find c k = some t ∧ Rel t (dAbs tb.heads) := by
  have gen : ∀ (m : SMap Int Table), (keys m).Nodup → ∀ c0 : SMap Int Table,
      ∃ c, m.foldlM (fun c p => do
          let t ← dummyTable p.2.heads
          Out.ok (OMap.insert c p.1 t)) c0 = .ok c ∧
        (∀ p ∈ m, ∃ t, find c p.1 = some t ∧ Rel t (dAbs p.2.heads)) ∧
        ∀ k, k ∉ keys m → find c k = find c0 k := by
    intro m
    induction m with
    | nil => exact fun _ c0 => ⟨c0, rfl, by simp, fun _ _ => rfl⟩
    | cons p m ih =>
      intro hn c0
      obtain ⟨hp, hm'⟩ := List.nodup_cons.mp hn
      obtain ⟨t, h1, h2⟩ := dummyTable_rel p.2.heads
      obtain ⟨c, h3, h4, h5⟩ := ih hm' (OMap.insert c0 p.1 t)
      refine ⟨c, ?_, ?_, ?_⟩
      · rw [List.foldlM_cons, h1]
        exact h3
      · intro q hq
        rcases List.mem_cons.mp hq with rfl | hq
        · exact ⟨t, by rw [h5 _ hp, find_insert, if_pos rfl], h2⟩
        · exact h4 q hq
      · intro k hk
        have : k ≠ p.1 ∧ k ∉ keys m := by simpa [keys] using hk
        rw [h5 k this.2, find_insert, if_neg this.1]
  obtain ⟨c, h1, h2, _⟩ := gen m (nodup_keys hm) []
  exact ⟨c, h1, fun k tb hk => h2 (k, tb) (mem_of_find hk)⟩

/-- The row a cell adds. -/
def CellRow (k : Int) (row : Row) : CellRun → Prop
  | .dry => row = []
  | .failed _ => row = []
  | .wet m => ∃ tb a, find m k = some tb ∧ Rel tb a ∧
      ((a.heads = [] ∧ row = []) ∨
       ∃ row0, a.done = [row0] ∧ a.heads ≠ [] ∧ row = a.heads.map (fun h => (h, Row.value row0 h)))

theorem blankRow_spec (m c : SMap Int Table) (hm : Sorted m) (A : Int → Abs)
    (h : ∀ k ∈ keys m, ∃ t, find c k = some t ∧ Rel t (A k)) :
    ∃ c', blankRow m c = .ok c' ∧
      ∀ k ∈ keys m, ∃ t, find c' k = some t ∧ Rel t (rowStep (A k) []) := by
  obtain ⟨c', h1, h2, _⟩ := update_map .ub (fun _ t => t.endRow) m (nodup_keys hm) c (by
    intro p hp
    obtain ⟨t, ht, hr⟩ := h p.1 (List.mem_map.mpr ⟨p, hp, rfl⟩)
    obtain ⟨t', h1, _⟩ := rel_endRow hr
    exact ⟨t, t', ht, h1⟩)
  refine ⟨c', h1, ?_⟩
  intro k hk
  obtain ⟨p, hp, rfl⟩ := List.mem_map.mp hk
  obtain ⟨t, ht, hr⟩ := h p.1 hk
  obtain ⟨t', h3, h4⟩ := rel_endRow hr
  exact ⟨t', h2 p hp t t' ht h3, h4⟩

theorem cell_serialize {tb : Table} {ops : List Op} (hc : CStrings ops) (hm : Made ops tb)
    (hn : tb.nRow = if tb.colCount = 0 then 0 else 1) :
    ∃ s row, tb.serialize 0 = .ok s ∧
      ((absOf ops).heads = [] ∧ row = [] ∨
        ∃ row0, (absOf ops).done = [row0] ∧ (absOf ops).heads ≠ [] ∧
          row = (absOf ops).heads.map (fun h => (h, Row.value row0 h))) ∧
      ∀ {t : Table} {a : Abs}, Rel t a → ∃ t', t.deSerialize s = .ok t' ∧ Rel t' (rowStep a row) := by
  have hr := made_rel hm
  have hok := abs_ok hc
  generalize absOf ops = b at hr hok
  by_cases h0 : b.heads = []
  · refine ⟨packed [] [], [], serialize_nil (by rw [hr.heads, h0]) 0, .inl ⟨h0, rfl⟩, ?_⟩
    intro t a hra
    exact deSerialize_eq [] (fun _ => .empty) (by simp) hra
  · have hpos : b.heads.length ≠ 0 := fun h => h0 (List.eq_nil_of_length_eq_zero h)
    rw [Table.colCount, hr.heads, if_neg hpos, hr.nrow] at hn
    obtain ⟨row0, hrow0⟩ := List.length_eq_one_iff.mp hn
    refine ⟨_, _, serialize_eq hr (r := 0) (row := row0) (by rw [hrow0]; rfl),
      .inr ⟨row0, hrow0, h0, rfl⟩, ?_⟩
    intro t a hra
    obtain ⟨t', h1, h2⟩ := deSerialize_eq b.heads (Row.value row0)
      (fun h hh => ⟨hok.heads h hh, Row.value_ok (hok.done row0 (by rw [hrow0]; simp)) h⟩) hra
    refine ⟨t', h1, ?_⟩
    unfold rowStep
    rw [List.map_map]
    exact h2

theorem saveRow_spec (m c : SMap Int Table) (hm : Sorted m)
    (hgood : ∀ k tb, find m k = some tb →
      ∃ ops, CStrings ops ∧ Made ops tb ∧ tb.nRow = if tb.colCount = 0 then 0 else 1)
    (A : Int → Abs) (h : ∀ k ∈ keys m, ∃ t, find c k = some t ∧ Rel t (A k)) :
    ∃ c', saveRow m c = .ok c' ∧ ∀ k ∈ keys m, ∃ t row, find c' k = some t ∧
      CellRow k row (.wet m) ∧ Rel t (rowStep (A k) row) := by
  have one : ∀ p ∈ m, ∃ s t t' row, p.2.serialize 0 = .ok s ∧ find c p.1 = some t ∧
      t.deSerialize s = .ok t' ∧ CellRow p.1 row (.wet m) ∧ Rel t' (rowStep (A p.1) row) := by
    intro p hp
    have hf := find_of_mem hm hp
    obtain ⟨t, ht, hr⟩ := h p.1 (List.mem_map.mpr ⟨p, hp, rfl⟩)
    obtain ⟨ops, g1, g2, g3⟩ := hgood p.1 p.2 hf
    obtain ⟨s, row, s1, s2, s3⟩ := cell_serialize g1 g2 g3
    obtain ⟨t', d1, d2⟩ := s3 hr
    exact ⟨s, t, t', row, s1, ht, d1, ⟨p.2, absOf ops, hf, made_rel g2, s2⟩, d2⟩
  obtain ⟨c', h1, h2, _⟩ := update_map .throw (fun p t => do
      let s ← p.2.serialize 0
      t.deSerialize s) m (nodup_keys hm) c (by
    intro p hp
    obtain ⟨s, t, t', row, s1, s2, s3, _⟩ := one p hp
    exact ⟨t, t', s2, by rw [s1]; exact s3⟩)
  refine ⟨c', ?_, ?_⟩
  · rw [← h1]
    unfold saveRow
    congr 1
    funext c p
    cases find c p.1 with
    | none => rfl
    | some t => simp only [bind_assoc]
  · intro k hk
    obtain ⟨p, hp, rfl⟩ := List.mem_map.mp hk
    obtain ⟨s, t, t', row, s1, s2, s3, s4, s5⟩ := one p hp
    exact ⟨t', row, h2 p hp t t' s2 (by rw [s1]; exact s3), s4, s5⟩

/-- The loop over the cells of a thread. -/
theorem runCells_spec (ks : List Int) (cells : List CellRun)
    (hgood : ∀ cell ∈ cells, GoodCell ks cell) (A : Int → Abs)
    (st : SMap Int Table × SMap Int Table) (hs : Sorted st.1) (hk : keys st.1 = ks)
    (h : ∀ k ∈ ks, ∃ t, find st.2 k = some t ∧ Rel t (A k)) :
    ∃ st', cells.foldlM runCell st = .ok st' ∧
      ∀ k ∈ ks, ∃ t rows, find st'.2 k = some t ∧ Rel t (rows.foldl rowStep (A k)) ∧
        List.Forall₂ (fun cell row => CellRow k row cell) cells rows := by
  induction cells generalizing st A with
  | nil =>
    refine ⟨st, rfl, ?_⟩
    intro k hk'
    obtain ⟨t, h1, h2⟩ := h k hk'
    exact ⟨t, [], h1, h2, .nil⟩
  | cons cell cells ih =>
    have hc := hgood cell List.mem_cons_self
    have step : ∃ (st1 : SMap Int Table × SMap Int Table), runCell st cell = .ok st1 ∧
        Sorted st1.1 ∧ keys st1.1 = ks ∧
        ∀ k ∈ ks, ∃ t row, find st1.2 k = some t ∧ CellRow k row cell ∧
          Rel t (rowStep (A k) row) := by
      cases cell with
      | dry =>
        obtain ⟨c', h1, h2⟩ := blankRow_spec st.1 st.2 hs A (by rw [hk]; exact h)
        refine ⟨(st.1, c'), by simp only [runCell, h1, Out.ok_bind], hs, hk, fun k hk' => ?_⟩
        obtain ⟨t, t1, t2⟩ := h2 k (by rw [hk]; exact hk')
        exact ⟨t, [], t1, rfl, t2⟩
      | failed m =>
        obtain ⟨g1, g2⟩ := hc
        obtain ⟨c', h1, h2⟩ := blankRow_spec m st.2 g1 A (by rw [g2]; exact h)
        refine ⟨(m, c'), by simp only [runCell, h1, Out.ok_bind], g1, g2, fun k hk' => ?_⟩
        obtain ⟨t, t1, t2⟩ := h2 k (by rw [g2]; exact hk')
        exact ⟨t, [], t1, rfl, t2⟩
      | wet m =>
        obtain ⟨g1, g2, g3⟩ := hc
        obtain ⟨c', h1, h2⟩ := saveRow_spec m st.2 g1 g3 A (by rw [g2]; exact h)
        refine ⟨(m, c'), by simp only [runCell, h1, Out.ok_bind], g1, g2, fun k hk' => ?_⟩
        exact h2 k (by rw [g2]; exact hk')
    obtain ⟨st1, s1, s2, s3, s4⟩ := step
    have hR : ∀ k : Int, ∃ row : Row, k ∈ ks →
        ∃ t, find st1.2 k = some t ∧ CellRow k row cell ∧ Rel t (rowStep (A k) row) := by
      intro k
      by_cases hk' : k ∈ ks
      · obtain ⟨t, row, h⟩ := s4 k hk'
        exact ⟨row, fun _ => ⟨t, h⟩⟩
      · exact ⟨[], fun h => absurd h hk'⟩
    obtain ⟨R, hR⟩ := Classical.axiomOfChoice hR
    obtain ⟨st', h1, h2⟩ := ih (fun c hc => hgood c (List.mem_cons_of_mem _ hc))
      (fun k => rowStep (A k) (R k)) st1 s2 s3 (fun k hk' => by
        obtain ⟨t, t1, _, t3⟩ := hR k hk'
        exact ⟨t, t1, t3⟩)
    refine ⟨st', ?_, ?_⟩
    · rw [List.foldlM_cons, s1]
      exact h1
    · intro k hk'
      obtain ⟨t, rows, r1, r2, r3⟩ := h2 k hk'
      obtain ⟨_, _, q2, _⟩ := hR k hk'
      exact ⟨t, R k :: rows, r1, r2, .cons q2 r3⟩

theorem rowStep_eq {a : Abs} {row : Row} (h : a.heads ≠ []) :
    (rowStep a row).done = a.done ++ [a.cur ++ row] ∧ (rowStep a row).cur = [] ∧
    (∀ k ∈ a.heads, k ∈ (rowStep a row).heads) ∧
    (∀ x ∈ row, x.1 ∈ (rowStep a row).heads) ∧
    (∀ k ∈ (rowStep a row).heads, k ∈ a.heads ∨ ∃ x ∈ row, x.1 = k) := by
  unfold rowStep
  rw [List.foldl_append, foldl_push]
  obtain ⟨h1, h2, h3⟩ := foldl_push_heads a row
  generalize ((row.map (fun x => Op.push x.1 x.2)).foldl Abs.step a).heads = H at *
  have hH : H ≠ [] := by
    intro h0
    cases ha : a.heads with
    | nil => exact h ha
    | cons x xs => have := h1 x (by rw [ha]; simp); rw [h0] at this; simp at this
  simp only [List.foldl_cons, List.foldl_nil, Abs.step, hH, if_false]
  exact ⟨trivial, trivial, h1, h2, h3⟩

/-- Rows of the table after the loop, when there are columns at the start. -/
theorem rows_done {a : Abs} (h : a.heads ≠ []) (hcur : ∀ p ∈ a.cur, p.2 = Var.empty)
    (rows : List Row) :
    ∃ rows', (rows.foldl rowStep a).done = a.done ++ rows' ∧
      List.Forall₂ (fun row row' => ∀ k, Row.value row' k = Row.value row k) rows rows' ∧
      (∀ k ∈ a.heads, k ∈ (rows.foldl rowStep a).heads) ∧
      (∀ row ∈ rows, ∀ x ∈ row, x.1 ∈ (rows.foldl rowStep a).heads) ∧
      (∀ k ∈ (rows.foldl rowStep a).heads, k ∈ a.heads ∨ ∃ row ∈ rows, ∃ x ∈ row, x.1 = k) := by
  induction rows generalizing a with
  | nil => exact ⟨[], by simp, .nil, fun k hk => hk, by simp, fun k hk => .inl hk⟩
  | cons row rows ih =>
    obtain ⟨e1, e2, e3, e4, e5⟩ := rowStep_eq (row := row) h
    have hne : (rowStep a row).heads ≠ [] := by
      intro h0
      cases ha : a.heads with
      | nil => exact h ha
      | cons x xs => have := e3 x (by rw [ha]; simp); rw [h0] at this; simp at this
    obtain ⟨rows', f1, f2, f3, f4, f5⟩ := ih hne (by rw [e2]; simp)
    refine ⟨(a.cur ++ row) :: rows', ?_, .cons ?_ f2, ?_, ?_, ?_⟩
    · rw [List.foldl_cons, f1, e1]; simp
    · intro k
      obtain ⟨v1, v2⟩ := Row.value_append a.cur row k
      by_cases hk : k ∈ row.map Prod.fst
      · exact v1 hk
      · rw [v2 hk, Row.value_of_empty hcur, Row.value_none]
        intro p hp e
        exact hk (List.mem_map.mpr ⟨p, hp, e⟩)
    · intro k hk; exact f3 k (e3 k hk)
    · intro r hr x hx
      rcases List.mem_cons.mp hr with rfl | hr
      · exact f3 _ (e4 x hx)
      · exact f4 r hr x hx
    · intro k hk
      rcases f5 k hk with h1 | ⟨r, hr, x, hx, e⟩
      · rcases e5 k h1 with h2 | ⟨x, hx, e⟩
        · exact .inl h2
        · exact .inr ⟨row, List.mem_cons_self, x, hx, e⟩
      · exact .inr ⟨r, List.mem_cons_of_mem _ hr, x, hx, e⟩

theorem dAbs_eq (hs : List Name) :
    (dAbs hs).done = [] ∧ (∀ p ∈ (dAbs hs).cur, p.2 = Var.empty) ∧
    ∀ k, k ∈ (dAbs hs).heads ↔ k ∈ hs := by
  have e : dAbs hs = ((hs.map (fun h => (h, Var.empty))).map (fun x => Op.push x.1 x.2)).foldl
      Abs.step Abs.new := by
    unfold dAbs; rw [List.map_map]; rfl
  obtain ⟨h1, h2, h3⟩ := foldl_push_heads Abs.new (hs.map (fun h => (h, Var.empty)))
  rw [← e] at h1 h2 h3
  rw [foldl_push] at e
  refine ⟨?_, ?_, ?_⟩
  · rw [e]; rfl
  · rw [e]
    intro p hp
    simp only [Abs.new, List.nil_append] at hp
    obtain ⟨x, _, rfl⟩ := List.mem_map.mp hp
    rfl
  · intro k
    constructor
    · intro hk
      rcases h3 k hk with h | ⟨x, hx, e⟩
      · simp [Abs.new] at h
      · obtain ⟨y, hy, rfl⟩ := List.mem_map.mp hx
        exact e ▸ hy
    · intro hk
      exact h2 (k, Var.empty) (List.mem_map.mpr ⟨k, hk, rfl⟩)

theorem get_head_iff {t : Table} {a : Abs} (hr : Rel t a) (c : Int) (h : Name) :
    t.get 0 c = .ok (.val (.str h)) ↔ 0 ≤ c ∧ a.heads[c.toNat]? = some h := by
  rw [rel_get hr]
  unfold Abs.get
  by_cases h0 : a.heads = []
  · simp [h0]
  · simp only [h0, false_or]
    rw [if_neg (by omega)]
    by_cases hc : c < 0
    · simp [hc]
    · rw [if_neg hc]
      cases hy : a.heads[c.toNat]? with
      | none => simp
      | some k =>
        have : 0 ≤ c := by omega
        simp [this]

theorem get_row {t : Table} {a : Abs} (hr : Rel t a) {c : Int} {h : Name} (hc : 0 ≤ c)
    (hh : a.heads[c.toNat]? = some h) {i : Nat} {row : Row} (hrow : a.done[i]? = some row) :
    t.get ((i : Int) + 1) c = .ok (.val (Row.value row h)) := by
  rw [rel_get hr]
  unfold Abs.get
  have hlt := (List.getElem?_eq_some_iff.mp hrow).1
  have hne : a.heads ≠ [] := by intro h0; rw [h0] at hh; simp at hh
  rw [if_neg (by simp only [hne, false_or, not_or]; omega), if_neg (by omega), hh]
  simp only
  rw [if_neg (by omega), show ((i : Int) + 1 - 1).toNat = i by omega, hrow]

theorem cellRow_shows {k : Int} {row : Row} {cell : CellRun} (h : CellRow k row cell) (n : Name) :
    Shows k n (Row.value row n) cell := by
  cases cell with
  | dry => simp only [CellRow] at h; subst h; rfl
  | failed m => simp only [CellRow] at h; subst h; rfl
  | wet m =>
    obtain ⟨tb, a, h1, h2, h3⟩ := h
    refine ⟨tb, h1, ?_⟩
    by_cases hn : n ∈ a.heads
    · obtain ⟨c, hc⟩ := List.getElem?_of_mem hn
      left
      rcases h3 with ⟨h4, _⟩ | ⟨row0, h4, _, h5⟩
      · rw [h4] at hn; simp at hn
      · refine ⟨(c : Int), (get_head_iff h2 _ _).mpr ⟨by omega, by simpa using hc⟩, ?_⟩
        have := get_row h2 (c := (c : Int)) (h := n) (i := 0) (row := row0) (by omega)
          (by simpa using hc) (by rw [h4]; rfl)
        rw [h5, Row.value_map, if_pos hn]
        exact this
    · right
      refine ⟨?_, ?_⟩
      · intro c hc
        exact hn (List.mem_of_getElem? ((get_head_iff h2 _ _).mp hc).2)
      · rcases h3 with ⟨_, h5⟩ | ⟨row0, _, _, h5⟩
        · rw [h5]; rfl
        · rw [h5, Row.value_map, if_neg hn]

/-- What one thread leaves for selected output `nU`, in terms of abstract tables. -/
theorem runThread_spec (dummy : SMap Int Table) (hd : Sorted dummy) (cells : List CellRun)
    (hgood : ∀ cell ∈ cells, GoodCell (keys dummy) cell) :
    ∃ c, runThread dummy cells = .ok c ∧ ∀ nU tb, find dummy nU = some tb →
      ∃ t rows, find c nU = some t ∧ Rel t (rows.foldl rowStep (dAbs tb.heads)) ∧
        List.Forall₂ (fun cell row => CellRow nU row cell) cells rows := by
  obtain ⟨c0, h1, h2⟩ := dummyMap_spec dummy hd
  have hA : ∀ k ∈ keys dummy, ∃ t, find c0 k = some t ∧
      Rel t ((fun k => match find dummy k with
        | some tb => dAbs tb.heads
        | none => Abs.new) k) := by
    intro k hk
    obtain ⟨tb, htb⟩ := (mem_keys_iff _ _).mp hk
    obtain ⟨t, t1, t2⟩ := h2 k tb htb
    refine ⟨t, t1, ?_⟩
    simp only [htb]
    exact t2
  obtain ⟨st, h3, h4⟩ := runCells_spec (keys dummy) cells hgood _ (dummy, c0) hd rfl hA
  refine ⟨st.2, ?_, ?_⟩
  · unfold runThread
    rw [h1]
    simp only [Out.ok_bind, h3]
  · intro nU tb htb
    obtain ⟨t, rows, r1, r2, r3⟩ := h4 nU ((mem_keys_iff _ _).mpr ⟨tb, htb⟩)
    simp only [htb] at r2
    exact ⟨t, rows, r1, r2, r3⟩

/-! ## The property -/

/-- **C24, the statement.** A thread's table has one row for each cell, and the row of a cell
shows that cell's values. -/
def OneRowPerCell (dummy : SMap Int Table) (cells : List CellRun) (nU : Int) : Prop :=
  ∃ c t, runThread dummy cells = .ok c ∧ find c nU = some t ∧ t.nRow = cells.length ∧
    ∀ (i : Nat) (cell : CellRun), cells[i]? = some cell → ∀ (col : Int) (h : Name),
      t.get 0 col = .ok (.val (.str h)) →
      ∃ v, t.get ((i : Int) + 1) col = .ok (.val v) ∧ Shows nU h v cell

/-- **C24, partial.** When the dummy run gives the selected output at least one column, every
cell has its row, for every pattern of dry, failed and wet cells, whatever columns the cells
add. Missing for the full statement: selected outputs that have no column until a cell is run
(`blank_rows_violated`). -/
theorem blank_rows_partial (dummy : SMap Int Table) (hd : Sorted dummy) (cells : List CellRun)
    (hgood : ∀ cell ∈ cells, GoodCell (keys dummy) cell) (nU : Int) (tb : Table)
    (htb : find dummy nU = some tb) (hcol : tb.colCount ≠ 0) :
    OneRowPerCell dummy cells nU := by
  obtain ⟨c, h1, h2⟩ := runThread_spec dummy hd cells hgood
  obtain ⟨t, rows, h3, h4, h5⟩ := h2 nU tb htb
  obtain ⟨d1, d2, d3⟩ := dAbs_eq tb.heads
  have hne : (dAbs tb.heads).heads ≠ [] := by
    intro h0
    unfold Table.colCount at hcol
    cases hh : tb.heads with
    | nil => rw [hh] at hcol; simp at hcol
    | cons x xs =>
      have := (d3 x).mpr (by rw [hh]; simp)
      rw [h0] at this
      simp at this
  obtain ⟨rows', e1, e2, _⟩ := rows_done hne d2 rows
  rw [d1, List.nil_append] at e1
  have l1 := h5.length_eq
  have l2 := e2.length_eq
  refine ⟨c, t, h1, h3, by rw [h4.nrow, e1, ← l2, ← l1], ?_⟩
  intro i cell hcell col h hh
  obtain ⟨c0, ch⟩ := (get_head_iff h4 col h).mp hh
  have hi : i < cells.length := (List.getElem?_eq_some_iff.mp hcell).1
  have hrow : rows[i]? = some rows[i] := List.getElem?_eq_getElem (by omega)
  have hrow' : rows'[i]? = some rows'[i] := List.getElem?_eq_getElem (by omega)
  refine ⟨_, get_row h4 c0 ch (by rw [e1]; exact hrow'), ?_⟩
  have k1 := (List.forall₂_iff_get.mp e2).2 i (by omega) (by omega) h
  have k2 := (List.forall₂_iff_get.mp h5).2 i hi (by omega)
  have k3 : cells.get ⟨i, hi⟩ = cell := by
    rw [List.get_eq_getElem]
    exact (List.getElem?_eq_some_iff.mp hcell).2
  rw [k3] at k2
  simp only [List.get_eq_getElem] at k1 k2
  rw [k1]
  exact cellRow_shows k2 h

/-- The table of a cell run with one column. -/
def wetTable (x : ℚ) : Table := ⟨1, [['p']], [[.dbl x]], [(['p'], 0)]⟩

/-- A dummy run without columns, then a dry and a wet cell: a `USER_PUNCH` that prints
conditionally and names no headings. -/
def lateCells : List CellRun := [.dry, .wet [(1, wetTable 5)]]

/-- **C24 is violated.** Without columns the blank row of a dry cell is dropped, so the row of
the wet cell is the first one. -/
theorem blank_rows_violated :
    ¬ ∀ (dummy : SMap Int Table) (cells : List CellRun) (nU : Int), Sorted dummy →
      (∀ cell ∈ cells, GoodCell (keys dummy) cell) → (∃ tb, find dummy nU = some tb) →
      OneRowPerCell dummy cells nU := by
  intro h
  obtain ⟨c, t, h1, h2, h3, _⟩ := h [(1, Table.new)] lateCells 1 (by simp [Sorted]) (by
    intro cell hc
    simp only [lateCells, List.mem_cons, List.not_mem_nil, or_false] at hc
    rcases hc with rfl | rfl
    · trivial
    · refine ⟨by simp [Sorted], by simp [keys], ?_⟩
      intro k tb hk
      simp only [find] at hk
      split at hk
      · simp only [Option.some.injEq] at hk
        subst hk
        refine ⟨[.push ['p'] (.dbl 5), .endRow], ?_, ?_, by decide⟩
        · intro a v hm
          simp only [List.mem_cons, Op.push.injEq, List.not_mem_nil, or_false, reduceCtorEq] at hm
          obtain ⟨rfl, rfl⟩ := hm
          simp [CString, Var.Ok]
        · unfold Made
          decide +kernel
      · simp at hk) ⟨Table.new, by simp [find]⟩
  have key : (match runThread [(1, Table.new)] lateCells with
    | .ok c => match find c 1 with
      | some t => decide (t.nRow = lateCells.length)
      | none => true
    | _ => true) = false := by decide +kernel
  rw [h1] at key
  simp only [h2, h3] at key
  simp at key

/-- Non-trivial case of `blank_rows_partial`: a first cell that is dry and a second that is
wet and adds a column. -/
example : ∃ c t, runThread [(1, ⟨0, [['q']], [[]], [(['q'], 0)]⟩)] lateCells = .ok c ∧
    find c 1 = some t ∧ t.nRow = 2 ∧ t.get 0 1 = .ok (.val (.str ['p'])) ∧
    t.get 1 1 = .ok (.val .empty) ∧ t.get 2 1 = .ok (.val (.dbl 5)) := by
  exact ⟨[(1, ⟨2, [['q'], ['p']], [[.empty, .empty], [.empty, .dbl 5]],
    [(['p'], 1), (['q'], 0)]⟩)], _, by decide +kernel, rfl, rfl, by decide +kernel,
    by decide +kernel, by decide +kernel⟩

end Verif.SelOut
