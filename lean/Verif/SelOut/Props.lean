import Verif.SelOut.Pack

/-!
# C23, C25: the table and its serialisation
-/

namespace Verif.SelOut

open Verif.OMap Verif.Grid

/-- The table a history of operations makes. -/
def Made (ops : List Op) (t : Table) : Prop := ops.foldlM Table.step Table.new = .ok t

/-- The specification's answer to the same history. -/
def absOf (ops : List Op) : Abs := ops.foldl Abs.step Abs.new

theorem made_rel {ops : List Op} {t : Table} (h : Made ops t) : Rel t (absOf ops) := by
  obtain ⟨t', h1, h2⟩ := rel_run rel_new ops
  have : Out.ok t = Out.ok t' := h.symm.trans h1
  cases this
  exact h2

/-- **C23.** Every history of operations succeeds, and every `Get` afterwards, in or out of
range, returns what the specification says: headings in order of first use, the last value
given in each finished row, empty where none was given. -/
theorem table_refines (ops : List Op) :
    ∃ t, Made ops t ∧
      (∀ r c, t.get r c = .ok ((absOf ops).get r c)) ∧
      t.colCount = (absOf ops).heads.length ∧
      t.rowCount = (if (absOf ops).heads = [] then 0 else (absOf ops).done.length + 1) := by
  obtain ⟨t, h1, h2⟩ := rel_run rel_new ops
  refine ⟨t, h1, rel_get h2, by rw [Table.colCount, h2.heads]; rfl, ?_⟩
  have e : (absOf ops) = ops.foldl Abs.step Abs.new := rfl
  unfold Table.rowCount Table.colCount
  rw [h2.heads, h2.nrow, e]
  by_cases h0 : (ops.foldl Abs.step Abs.new).heads = []
  · simp [h0]
  · simp [h0]

/-- **C23.** After a finished row all columns are as long as the number of rows. -/
theorem table_rectangular (ops : List Op) :
    ∃ t, Made (ops ++ [.endRow]) t ∧ t.cols.length = t.colCount ∧
      ∀ col ∈ t.cols, col.length = t.nRow := by
  obtain ⟨t, h1, h2⟩ := rel_run rel_new ops
  obtain ⟨t', h3, h4, h5⟩ := rel_endRow_full h2
  refine ⟨t', ?_, ?_, h5⟩
  · unfold Made
    rw [List.foldlM_append, h1]
    simp only [Out.ok_bind, List.foldlM_cons, List.foldlM_nil, Table.step, h3, Out.pure_eq]
  · rw [h4.clen, Table.colCount, h4.heads]

/-- Two rows; the second introduces a heading and corrects a value. -/
def demoOps : List Op :=
  [.push ['a'] (.dbl (1 / 2)), .endRow, .push ['b'] (.long 7), .push ['a'] (.dbl 1),
   .push ['a'] (.str ['x', 'y']), .endRow]

example : ∃ t, Made demoOps t ∧ t.get 0 1 = .ok (.val (.str ['b'])) ∧
    t.get 1 1 = .ok (.val .empty) ∧ t.get 2 0 = .ok (.val (.str ['x', 'y'])) ∧
    t.get 2 1 = .ok (.val (.long 7)) ∧ t.get 3 0 = .ok .invalidRow ∧
    t.get 2 2 = .ok .invalidCol ∧ t.get (-1) 0 = .ok .invalidRow := by
  obtain ⟨t, h1, h2, _⟩ := table_refines demoOps
  refine ⟨t, h1, ?_⟩
  simp only [h2, Out.ok.injEq]
  decide +kernel

/-- Every string in the history is a C string. -/
def CStrings (ops : List Op) : Prop := ∀ h v, Op.push h v ∈ ops → CString h ∧ v.Ok

/-- All strings in an abstract table are C strings. -/
structure Abs.Ok (a : Abs) : Prop where
  heads : ∀ h ∈ a.heads, CString h
  done  : ∀ row ∈ a.done, ∀ p ∈ row, Var.Ok p.2
  cur   : ∀ p ∈ a.cur, Var.Ok p.2

theorem abs_ok_step {a : Abs} (h : a.Ok) (op : Op)
    (hop : ∀ k v, op = Op.push k v → CString k ∧ v.Ok) : (a.step op).Ok := by
  cases op with
  | push k v =>
    obtain ⟨h1, h2⟩ := hop k v rfl
    refine ⟨?_, h.done, ?_⟩
    · intro x hx
      simp only [Abs.step] at hx
      split at hx
      · exact h.heads x hx
      · rcases List.mem_append.mp hx with hx | hx
        · exact h.heads x hx
        · simp only [List.mem_singleton] at hx; subst hx; exact h1
    · intro p hp
      simp only [Abs.step] at hp
      rcases List.mem_append.mp hp with hp | hp
      · exact h.cur p hp
      · simp only [List.mem_singleton] at hp; subst hp; exact h2
  | endRow =>
    simp only [Abs.step]
    split
    · exact h
    · refine ⟨h.heads, ?_, by simp⟩
      intro row hrow
      rcases List.mem_append.mp hrow with hrow | hrow
      · exact h.done row hrow
      · simp only [List.mem_singleton] at hrow; subst hrow; exact h.cur

theorem abs_ok {ops : List Op} (h : CStrings ops) : (absOf ops).Ok := by
  have gen : ∀ (ops : List Op) (a : Abs), a.Ok → CStrings ops → (ops.foldl Abs.step a).Ok := by
    intro ops
    induction ops with
    | nil => exact fun a ha _ => ha
    | cons op ops ih =>
      intro a ha hc
      exact ih _ (abs_ok_step ha op (fun k v e => hc k v (e ▸ List.mem_cons_self)))
        (fun k v hm => hc k v (List.mem_cons_of_mem _ hm))
  exact gen ops Abs.new ⟨by simp [Abs.new], by simp [Abs.new], by simp [Abs.new]⟩ h

theorem Row.value_ok {r : Row} (h : ∀ p ∈ r, Var.Ok p.2) (k : Name) : Var.Ok (Row.value r k) := by
  unfold Row.value
  split
  · rename_i p hp
    exact h p (List.mem_reverse.mp (List.mem_of_find?_eq_some hp))
  · trivial

theorem Row.value_map (hs : List Name) (f : Name → Var) (h : Name) :
    Row.value (hs.map (fun x => (x, f x))) h = if h ∈ hs then f h else .empty := by
  unfold Row.value
  cases hf : (hs.map (fun x => (x, f x))).reverse.find? (fun p => p.1 = h) with
  | none =>
    rw [List.find?_eq_none] at hf
    rw [if_neg]
    intro hm
    have := hf (h, f h) (List.mem_reverse.mpr (List.mem_map.mpr ⟨h, hm, rfl⟩))
    simp at this
  | some p =>
    have h1 := List.find?_some hf
    have h2 := List.mem_reverse.mp (List.mem_of_find?_eq_some hf)
    obtain ⟨x, hx, rfl⟩ := List.mem_map.mp h2
    simp only [decide_eq_true_eq] at h1
    subst h1
    simp [hx]

theorem Row.value_append (r s : Row) (h : Name) :
    (h ∈ s.map Prod.fst → Row.value (r ++ s) h = Row.value s h) ∧
    (h ∉ s.map Prod.fst → Row.value (r ++ s) h = Row.value r h) := by
  unfold Row.value
  rw [List.reverse_append, List.find?_append]
  constructor
  · intro hm
    obtain ⟨p, hp, rfl⟩ := List.mem_map.mp hm
    cases hf : s.reverse.find? (fun q => q.1 = p.1) with
    | none =>
      rw [List.find?_eq_none] at hf
      have := hf p (List.mem_reverse.mpr hp)
      simp at this
    | some q => rfl
  · intro hm
    have : s.reverse.find? (fun q => q.1 = h) = none := by
      rw [List.find?_eq_none]
      intro p hp e
      simp only [decide_eq_true_eq] at e
      exact hm (List.mem_map.mpr ⟨p, List.mem_reverse.mp hp, e⟩)
    rw [this]
    rfl

theorem Row.value_of_empty {r : Row} (h : ∀ p ∈ r, p.2 = Var.empty) (k : Name) :
    Row.value r k = .empty := by
  unfold Row.value
  split
  · rename_i p hp
    exact h p (List.mem_reverse.mp (List.mem_of_find?_eq_some hp))
  · rfl

/-- Pushing one value for each of several headings. -/
theorem foldl_push (a : Abs) (row : Row) :
    (row.map (fun x => Op.push x.1 x.2)).foldl Abs.step a =
      ⟨((row.map (fun x => Op.push x.1 x.2)).foldl Abs.step a).heads, a.done, a.cur ++ row⟩ := by
  induction row generalizing a with
  | nil => simp
  | cons x row ih =>
    rw [List.map_cons, List.foldl_cons, ih]
    simp [Abs.step]

theorem foldl_push_heads (a : Abs) (row : Row) :
    (∀ h ∈ a.heads, h ∈ ((row.map (fun x => Op.push x.1 x.2)).foldl Abs.step a).heads) ∧
    (∀ x ∈ row, x.1 ∈ ((row.map (fun x => Op.push x.1 x.2)).foldl Abs.step a).heads) ∧
    ∀ h ∈ ((row.map (fun x => Op.push x.1 x.2)).foldl Abs.step a).heads,
      h ∈ a.heads ∨ ∃ x ∈ row, x.1 = h := by
  induction row generalizing a with
  | nil => simp
  | cons x row ih =>
    rw [List.map_cons, List.foldl_cons]
    obtain ⟨h1, h2, h3⟩ := ih (a.step (.push x.1 x.2))
    have hsub : ∀ h, h ∈ (a.step (.push x.1 x.2)).heads ↔ h ∈ a.heads ∨ h = x.1 := by
      intro h
      simp only [Abs.step]
      split
      · rename_i hm
        constructor
        · exact .inl
        · rintro (h' | h')
          · exact h'
          · exact h' ▸ hm
      · simp
    refine ⟨fun h hh => h1 h ((hsub h).mpr (.inl hh)), ?_, ?_⟩
    · intro y hy
      rcases List.mem_cons.mp hy with rfl | hy
      · exact h1 _ ((hsub _).mpr (.inr rfl))
      · exact h2 y hy
    · intro h hh
      rcases h3 h hh with h4 | ⟨y, hy, rfl⟩
      · rcases (hsub h).mp h4 with h5 | h5
        · exact .inl h5
        · exact .inr ⟨x, List.mem_cons_self, h5.symm⟩
      · exact .inr ⟨y, List.mem_cons_of_mem _ hy, rfl⟩

/-- **C25.** A finished row of a table, packed and unpacked onto any other table, becomes one
more row there: every value of the row appears with its type under its heading, headings the
row does not have are empty, and the rows that were there are unchanged. The other table may
have unfinished empty values, as it has after the dummy run. -/
theorem row_serialisation (ops ops' : List Op) (hops : CStrings ops)
    (hpend : ∀ p ∈ (absOf ops').cur, p.2 = Var.empty) (t t' : Table)
    (ht : Made ops t) (ht' : Made ops' t') (r : Nat) (hr : 0 < r) (hrr : r < t.rowCount) :
    ∃ p u, t.serialize ((r : Int) - 1) = .ok p ∧ t'.deSerialize p = .ok u ∧
      u.nRow = t'.nRow + 1 ∧
      -- values of the row
      (∀ (c : Int) (h : Name), t.get 0 c = .ok (.val (.str h)) →
        ∃ c' : Int, u.get 0 c' = .ok (.val (.str h)) ∧ u.get u.nRow c' = t.get r c) ∧
      -- headings the row does not have
      (∀ (c' : Int) (h : Name), u.get 0 c' = .ok (.val (.str h)) →
        (∀ c : Int, t.get 0 c ≠ .ok (.val (.str h))) → u.get u.nRow c' = .ok (.val .empty)) ∧
      -- rows already there
      (∀ (r' c : Int), 0 < r' → r' ≤ t'.nRow → ∀ v, t'.get r' c = .ok (.val v) →
        u.get r' c = .ok (.val v)) := by
  have hrel := made_rel ht
  have hrel' := made_rel ht'
  have hok := abs_ok hops
  generalize absOf ops = a at hrel hok
  generalize absOf ops' = a' at hrel' hpend
  have hne : a.heads ≠ [] := by
    intro h0
    unfold Table.rowCount Table.colCount at hrr
    rw [hrel.heads, h0] at hrr
    simp at hrr
  have hneL : a.heads.length ≠ 0 := fun h => hne (List.eq_nil_of_length_eq_zero h)
  have hrlt : r - 1 < a.done.length := by
    unfold Table.rowCount Table.colCount at hrr
    rw [hrel.heads, if_pos hneL, hrel.nrow] at hrr
    omega
  obtain ⟨row, hrow⟩ : ∃ row, a.done[r - 1]? = some row := ⟨_, List.getElem?_eq_getElem hrlt⟩
  have hser := serialize_eq hrel hrow
  rw [show ((r - 1 : Nat) : Int) = (r : Int) - 1 by omega] at hser
  obtain ⟨u, hu1, hu2⟩ := deSerialize_eq a.heads (Row.value row)
    (fun h hh => ⟨hok.heads h hh, Row.value_ok (hok.done row (List.mem_of_getElem? hrow)) h⟩) hrel'
  refine ⟨_, u, hser, hu1, ?_⟩
  -- the abstract result
  have habs : ∃ b : Abs, Rel u b ∧
      b.done = a'.done ++ [a'.cur ++ a.heads.map (fun h => (h, Row.value row h))] ∧
      (∀ h ∈ a.heads, h ∈ b.heads) ∧ a'.heads <+: b.heads := by
    have e : a.heads.map (fun h => Op.push h (Row.value row h)) =
        (a.heads.map (fun h => (h, Row.value row h))).map (fun x => Op.push x.1 x.2) := by
      rw [List.map_map]; rfl
    rw [List.foldl_append, e, foldl_push] at hu2
    simp only [List.foldl_cons, List.foldl_nil] at hu2
    obtain ⟨h1, h2, _⟩ := foldl_push_heads a' (a.heads.map (fun h => (h, Row.value row h)))
    have hpre : ∀ (l : List Op) (x : Abs), x.heads <+: (l.foldl Abs.step x).heads := by
      intro l
      induction l with
      | nil => exact fun x => List.prefix_refl _
      | cons op l ih =>
        intro x
        refine List.IsPrefix.trans ?_ (ih _)
        cases op with
        | push k v =>
          simp only [Abs.step]
          split
          · exact List.prefix_refl _
          · exact List.prefix_append _ _
        | endRow =>
          simp only [Abs.step]
          split <;> exact List.prefix_refl _
    have h3 := hpre ((a.heads.map (fun h => (h, Row.value row h))).map (fun x => Op.push x.1 x.2)) a'
    generalize ((a.heads.map (fun h => (h, Row.value row h))).map
      (fun x => Op.push x.1 x.2)).foldl Abs.step a' = z at *
    have hz : z.heads ≠ [] := by
      intro h0
      cases ha : a.heads with
      | nil => exact hne ha
      | cons x xs =>
        have := h2 (x, Row.value row x) (by rw [ha]; simp)
        rw [h0] at this
        simp at this
    simp only [Abs.step, hz, if_false] at hu2
    exact ⟨_, hu2, rfl, fun h hh => h2 (h, Row.value row h) (List.mem_map.mpr ⟨h, hh, rfl⟩), h3⟩
  obtain ⟨b, hb, hdone, hheads, hpre⟩ := habs
  have hbne : b.heads ≠ [] := by
    intro h0
    cases ha : a.heads with
    | nil => exact hne ha
    | cons x xs => have := hheads x (by rw [ha]; simp); rw [h0] at this; simp at this
  have hnr : u.nRow = t'.nRow + 1 := by rw [hb.nrow, hrel'.nrow, hdone]; simp
  have hunr : (u.nRow : Int) = (a'.done.length : Int) + 1 := by rw [hnr, hrel'.nrow]; push_cast; rfl
  -- reading one heading of a table in terms of its abstract state
  have hhead : ∀ {x : Table} {y : Abs}, Rel x y → ∀ (c : Int) (h : Name),
      x.get 0 c = .ok (.val (.str h)) ↔ 0 ≤ c ∧ y.heads[c.toNat]? = some h := by
    intro x y hxy c h
    rw [rel_get hxy]
    unfold Abs.get
    by_cases h0 : y.heads = []
    · simp [h0]
    · simp only [h0, false_or]
      rw [if_neg (by omega)]
      by_cases hc : c < 0
      · simp [hc]
      · rw [if_neg hc]
        cases hy : y.heads[c.toNat]? with
        | none => simp
        | some k =>
          have : 0 ≤ c := by omega
          simp [this]
  have hlast : ∀ (c : Int) (h : Name), 0 ≤ c → b.heads[c.toNat]? = some h →
      u.get u.nRow c =
        .ok (.val (Row.value (a'.cur ++ a.heads.map (fun h => (h, Row.value row h))) h)) := by
    intro c h hc hh
    rw [rel_get hb, hunr]
    unfold Abs.get
    have hd : b.done.length = a'.done.length + 1 := by rw [hdone]; simp
    rw [if_neg (by rw [hd]; push_cast; simp only [hbne, false_or, not_or]; omega),
      if_neg (by omega), hh]
    simp only
    rw [if_neg (by omega), show ((a'.done.length : Int) + 1 - 1).toNat = a'.done.length by omega,
      hdone]
    simp
  have hval : ∀ h, Row.value (a'.cur ++ a.heads.map (fun h => (h, Row.value row h))) h =
      if h ∈ a.heads then Row.value row h else Row.value a'.cur h := by
    intro h
    obtain ⟨h1, h2⟩ := Row.value_append a'.cur (a.heads.map (fun h => (h, Row.value row h))) h
    have e : (a.heads.map (fun h => (h, Row.value row h))).map Prod.fst = a.heads := by
      rw [List.map_map]; simp [Function.comp_def]
    rw [e] at h1 h2
    by_cases hm : h ∈ a.heads
    · rw [h1 hm, Row.value_map, if_pos hm, if_pos hm]
    · rw [h2 hm, if_neg hm]
  refine ⟨hnr, ?_, ?_, ?_⟩
  · intro c h hc
    obtain ⟨hc0, hch⟩ := (hhead hrel c h).mp hc
    have hm := List.mem_of_getElem? hch
    obtain ⟨c', hc'⟩ := List.getElem?_of_mem (hheads h hm)
    refine ⟨(c' : Int), (hhead hb _ _).mpr ⟨by omega, by simpa using hc'⟩, ?_⟩
    rw [hlast (c' : Int) h (by omega) (by simpa using hc'), hval, if_pos hm, rel_get hrel]
    unfold Abs.get
    rw [if_neg (by simp only [hne, false_or, not_or]; omega), if_neg (by omega), hch]
    simp only
    rw [if_neg (by omega), show ((r : Int) - 1).toNat = r - 1 by omega, hrow]
  · intro c' h hc' hno
    obtain ⟨hc0, hch⟩ := (hhead hb c' h).mp hc'
    have hnm : h ∉ a.heads := by
      intro hm
      obtain ⟨c, hc⟩ := List.getElem?_of_mem hm
      exact hno (c : Int) ((hhead hrel _ _).mpr ⟨by omega, by simpa using hc⟩)
    rw [hlast c' h hc0 hch, hval, if_neg hnm, Row.value_of_empty hpend]
  · intro r' c hr0 hr1 v hv
    rw [rel_get hrel'] at hv
    rw [rel_get hb]
    rw [hrel'.nrow] at hr1
    unfold Abs.get at hv ⊢
    have hd : b.done.length = a'.done.length + 1 := by rw [hdone]; simp
    rw [if_neg (by rw [hd]; push_cast; simp only [hbne, false_or, not_or]; omega)]
    by_cases h0 : r' < 0 ∨ a'.heads = [] ∨ (a'.done.length : Int) < r'
    · rw [if_pos h0] at hv; simp at hv
    · rw [if_neg h0] at hv
      by_cases hc : c < 0
      · rw [if_pos hc] at hv; simp at hv
      · rw [if_neg hc] at hv ⊢
        cases hh : a'.heads[c.toNat]? with
        | none => rw [hh] at hv; simp at hv
        | some h =>
          rw [hh] at hv
          obtain ⟨z, hz⟩ := hpre
          have hlt := (List.getElem?_eq_some_iff.mp hh).1
          have hbh : b.heads[c.toNat]? = some h := by
            rw [← hz, List.getElem?_append_left hlt, hh]
          rw [hbh]
          simp only at hv ⊢
          rw [if_neg (by omega)] at hv ⊢
          have hrl : (r' - 1).toNat < a'.done.length := by omega
          rw [hdone, List.getElem?_append_left hrl]
          exact hv

/-- A row with every type of value. -/
def demoRow : List Op :=
  [.push ['a'] (.dbl (1 / 2)), .push ['b'] (.long (-7)), .push ['c'] (.str ['x', 'y']),
   .push ['d'] (.error (-4)), .push ['e'] .empty, .endRow]

example : CStrings demoRow ∧ (∀ p ∈ (absOf [Op.push ['z'] .empty]).cur, p.2 = Var.empty) ∧
    ∃ t, Made demoRow t ∧ 1 < t.rowCount ∧ t.get 1 2 = .ok (.val (.str ['x', 'y'])) := by
  refine ⟨?_, ?_, ?_⟩
  · intro h v hm
    simp only [demoRow, List.mem_cons, Op.push.injEq, List.not_mem_nil, or_false, reduceCtorEq]
      at hm
    rcases hm with ⟨rfl, rfl⟩ | ⟨rfl, rfl⟩ | ⟨rfl, rfl⟩ | ⟨rfl, rfl⟩ | ⟨rfl, rfl⟩ <;>
      simp [CString, Var.Ok]
  · simp [absOf, Abs.step, Abs.new]
  · obtain ⟨t, h1, h2, h3, h4⟩ := table_refines demoRow
    refine ⟨t, h1, ?_, ?_⟩
    · rw [h4]; decide +kernel
    · rw [h2]; simp only [Out.ok.injEq]; decide +kernel

end Verif.SelOut
