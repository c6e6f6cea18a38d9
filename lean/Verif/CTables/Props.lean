import Verif.CTables.Model

/-!
# Tables of C callers: properties
-/

namespace Verif.CTables

open Verif.CArrays

/-- `l'` holds a table: column `i` of grid cell `j` at `i * nxyz + j`; what follows is as in `l`. -/
def Holds (nxyz cols : Nat) (val : Nat → Nat → ℚ) (l l' : List ℚ) : Prop :=
  l'.length = l.length ∧
  (∀ i < cols, ∀ j < nxyz, l'[i * nxyz + j]? = some (val j i)) ∧
  (∀ k, cols * nxyz ≤ k → l'[k]? = l[k]?)

theorem layout_length (nxyz cols : Nat) (val : Nat → Nat → ℚ) :
    (layout nxyz cols val).length = cols * nxyz := by
  induction cols with
  | zero => simp [layout]
  | succ c ih =>
    unfold layout at ih ⊢
    rw [List.range_succ, List.flatMap_append, List.length_append, ih]
    simp [Nat.succ_mul]

theorem layout_get (nxyz cols : Nat) (val : Nat → Nat → ℚ) (i j : Nat) (hi : i < cols)
    (hj : j < nxyz) : (layout nxyz cols val)[i * nxyz + j]? = some (val j i) := by
  induction cols with
  | zero => omega
  | succ c ih =>
    have hl := layout_length nxyz c val
    have e : layout nxyz (c + 1) val =
        layout nxyz c val ++ (List.range nxyz).map (fun j => val j c) := by
      unfold layout
      rw [List.range_succ, List.flatMap_append]
      simp
    rw [e]
    rcases Nat.lt_or_ge i c with h | h
    · have hlt : i * nxyz + j < c * nxyz := by
        calc i * nxyz + j < i * nxyz + nxyz := by omega
          _ = (i + 1) * nxyz := by rw [Nat.succ_mul]
          _ ≤ c * nxyz := Nat.mul_le_mul_right _ h
      rw [List.getElem?_append_left (by omega), ih h]
    · have h' : i = c := by omega
      subst h'
      rw [List.getElem?_append_right (by omega), hl, Nat.add_sub_cancel_left]
      simp [hj]

theorem copyOut_holds {nxyz cols : Nat} {val : Nat → Nat → ℚ} {l : List ℚ}
    (h0 : 0 < cols * nxyz) (h : cols * nxyz ≤ l.length) :
    ∃ l', copyOut l (layout nxyz cols val) = .ok l' ∧ Holds nxyz cols val l l' := by
  have hl := layout_length nxyz cols val
  unfold copyOut
  rw [if_neg (by intro e; rw [e, List.length_nil] at hl; omega), if_neg (by omega)]
  refine ⟨_, rfl, ?_, ?_, ?_⟩
  · rw [List.length_append, List.length_drop]; omega
  · intro i hi j hj
    have hlt : i * nxyz + j < cols * nxyz := by
      calc i * nxyz + j < i * nxyz + nxyz := by omega
        _ = (i + 1) * nxyz := by rw [Nat.succ_mul]
        _ ≤ cols * nxyz := Nat.mul_le_mul_right _ hi
    rw [List.getElem?_append_left (by omega)]
    exact layout_get nxyz cols val i j hi hj
  · intro k hk
    rw [List.getElem?_append_right (by omega), List.getElem?_drop]
    congr 1
    omega

theorem resizeInt_nat (n : Nat) (h : (n : Int) ≤ intMax) : resizeInt n = .ok n := by
  unfold resizeInt maxSize
  unfold intMax at h
  rw [if_neg (by omega), if_neg (by omega)]
  simp

theorem prepared (a b : Nat) (h : ((a * b : Nat) : Int) ≤ intMax) :
    (do let k ← mulInt a b; let _ ← resizeInt k; pure () : Out Unit) = .ok () := by
  unfold mulInt
  rw [if_pos (by rw [← Int.natCast_mul]; unfold intMax at *; omega), Out.ok_bind,
    ← Int.natCast_mul, resizeInt_nat _ h]
  rfl

/-- The values of a grid cell that a C caller expects in a table: one per component, gas component,
species, or column. -/
def Mod.Columns (m : Mod) : Table → Nat → Prop
  | .concentrations, n => n = m.comps
  | .gasMoles, n | .gasPressures, n | .gasPhi, n => n = m.gases
  | .speciesConc, n | .speciesGammas, n | .speciesMolalities, n => m.saveOn = true ∧ n = m.species
  | .selected, n => m.cols = some n

theorem width_of {m : Mod} {t : Table} {n : Nat} (h : m.Columns t n) : m.width t = n := by
  cases t <;> simp only [Mod.Columns, Mod.width] at h ⊢
  · exact h.symm
  · exact h.symm
  · exact h.symm
  · exact h.symm
  · rw [if_pos h.1, h.2]
  · rw [if_pos h.1, h.2]
  · rw [if_pos h.1, h.2]
  · rw [h]; rfl

theorem prepare_of {m : Mod} {t : Table} {n : Nat} (h : m.Columns t n)
    (hbig : ((n * m.nxyz : Nat) : Int) ≤ intMax) : m.prepare t = .ok () := by
  have hbig' : ((m.nxyz * n : Nat) : Int) ≤ intMax := by rw [Nat.mul_comm]; exact hbig
  cases t <;> simp only [Mod.Columns] at h
  · subst h; exact prepared _ _ hbig'
  · subst h; exact prepared _ _ hbig'
  · subst h; exact prepared _ _ hbig'
  · subst h; exact prepared _ _ hbig'
  · rfl
  · rfl
  · rfl
  · simp only [Mod.prepare, Mod.columnCount, h]
    exact prepared _ _ hbig

/-- C196, in part. A getter of a table puts the value of column `i` for grid cell `j` at `i * nxyz + j`,
changes nothing behind the table, and returns the code of the class, leaving the array as it is when
that is an error. What is missing: the table must exist and not be empty (`nothing_to_copy`,
`no_selected_output`), and its size must be an `int` (`large_table`). -/
theorem table_got_partial (m : Mod) (t : Table) (n : Nat) (l : List ℚ)
    (hn : m.Columns t n) (hpos : 0 < n * m.nxyz) (hbig : ((n * m.nxyz : Nat) : Int) ≤ intMax)
    (hl : n * m.nxyz ≤ l.length) :
    (m.fails t = none → ∃ l', getTable (some m) t (some l) = .ok (some l', .ok) ∧
      Holds m.nxyz n (m.val t) l l') ∧
    (∀ e, m.fails t = some e → e ≠ .ok → getTable (some m) t (some l) = .ok (some l, e)) := by
  have hp := prepare_of hn hbig
  have hw := width_of hn
  constructor
  · intro hf
    obtain ⟨l', h1, h2⟩ := copyOut_holds (val := m.val t) hpos hl
    refine ⟨l', ?_, h2⟩
    have hs : ¬ (t = .selected ∧ m.cols = none) := by
      rintro ⟨rfl, e⟩
      simp only [Mod.Columns] at hn
      rw [hn] at e
      cases e
    have hg : m.get t = (layout m.nxyz n (m.val t), .ok) := by
      simp only [Mod.get, hf, if_neg hs, hw]
    simp only [getTable, hp, Out.ok_bind, hg, if_true, h1, Out.pure_eq]
  · intro e hf he
    have hg : m.get t = ([], e) := by simp only [Mod.get, hf]
    simp only [getTable, hp, Out.ok_bind, hg, if_neg he, Out.pure_eq]

/-- C196. Neither a number without an instance nor a null pointer has an effect. -/
theorem table_refused (m : Option Mod) (t : Table) (a : Option (List ℚ)) :
    (m = none → getTable m t a = .ok (a, .badInstance)) ∧
    (m ≠ none → a = none → getTable m t a = .ok (none, .invalidArg)) := by
  constructor
  · rintro rfl; rfl
  · intro hm ha
    subst ha
    cases m with
    | none => exact absurd rfl hm
    | some m => rfl

/-- Without gas components, or without species saved, the address of the first entry of an empty
vector is taken: undefined. The class returns an empty vector and `IRM_OK`. -/
theorem nothing_to_copy (m : Mod) (t : Table) (l : List ℚ) (ht : t ≠ .selected)
    (hf : m.fails t = none) (hw : m.width t = 0) :
    m.get t = ([], .ok) ∧ getTable (some m) t (some l) = .ub := by
  have hg : m.get t = ([], .ok) := by
    simp only [Mod.get, hf, hw, ht, false_and, if_false]
    rfl
  refine ⟨hg, ?_⟩
  have hp : m.prepare t = .ok () := by
    have hz : ((m.nxyz * 0 : Nat) : Int) ≤ intMax := by simp [intMax]
    cases t <;> simp only [Mod.width] at hw
    · simp only [Mod.prepare, hw]; exact prepared _ 0 hz
    · simp only [Mod.prepare, hw]; exact prepared _ 0 hz
    · simp only [Mod.prepare, hw]; exact prepared _ 0 hz
    · simp only [Mod.prepare, hw]; exact prepared _ 0 hz
    · rfl
    · rfl
    · rfl
    · exact absurd rfl ht
  simp only [getTable, hp, Out.ok_bind, hg, if_true, copyOut, Out.ub_bind]

/-- Without a selected output the class returns an error code; the C function lets an exception
escape: the number of columns is an error code, and a vector of its product with the number of cells
is asked for. -/
theorem no_selected_output (m : Mod) (l : List ℚ) (hf : m.fails .selected = none)
    (hc : m.cols = none) (h0 : 0 < m.nxyz) (hbig : 3 * (m.nxyz : Int) ≤ intMax) :
    m.get .selected = ([], .fail) ∧ getTable (some m) .selected (some l) = .throw := by
  refine ⟨by simp [Mod.get, hf, hc], ?_⟩
  have hp : m.prepare .selected = .throw := by
    have hcc : m.columnCount = -3 := by simp [Mod.columnCount, hc, IRM.toInt]
    simp only [Mod.prepare, hcc]
    unfold mulInt
    rw [if_pos (by unfold intMax at *; omega), Out.ok_bind]
    unfold resizeInt
    dsimp only
    rw [if_pos (show (-3 * (m.nxyz : Int)) < 0 by omega), if_pos (by
      unfold maxSize
      unfold intMax at hbig
      omega)]
    rfl
  simp only [getTable, hp, Out.throw_bind]

/-- A table whose size is not an `int` cannot be got, although the class has no such limit for
concentrations. -/
theorem large_table (m : Mod) (l : List ℚ) (h : intMax < ((m.nxyz * m.comps : Nat) : Int)) :
    getTable (some m) .concentrations (some l) = .ub := by
  have hp : m.prepare .concentrations = .ub := by
    simp only [Mod.prepare]
    unfold mulInt
    rw [← Int.natCast_mul, if_neg (by omega)]
    rfl
  simp only [getTable, hp, Out.ub_bind]

/-- The values of a grid cell in a table that is set. -/
def Mod.SetColumns (m : Mod) : SetTable → Nat → Prop
  | .concentrations, n => n = m.comps
  | .gasMoles, n => n = m.gases
  | .species, n => n = m.species

/-- C197, in part. A setter of a table hands the class the first `n * nxyz` entries of the array, where
`n` is the number of components, gas components or species. What is missing: as for the getters, the
table must not be empty (`set_nothing`) and its size an `int`. -/
theorem table_set_partial (m : Mod) (t : SetTable) (n : Nat) (l : List ℚ) (hn : m.SetColumns t n)
    (hpos : 0 < n * m.nxyz) (hbig : ((n * m.nxyz : Nat) : Int) ≤ intMax)
    (hl : n * m.nxyz ≤ l.length) :
    ∃ v, setTable (some m) t (some l) = .ok (some v, .ok) ∧ v.length = n * m.nxyz ∧
      ∀ i < n, ∀ j < m.nxyz, v[i * m.nxyz + j]? = l[i * m.nxyz + j]? := by
  have hw : m.setWidth t = n := by
    cases t <;> simp only [Mod.SetColumns] at hn <;> exact hn.symm
  have hc : m.nxyz * n = n * m.nxyz := Nat.mul_comm _ _
  refine ⟨l.take (n * m.nxyz), ?_, by rw [List.length_take]; omega, ?_⟩
  · unfold setTable mulInt
    dsimp only
    rw [hw, if_pos (by rw [← Int.natCast_mul, hc]; unfold intMax at *; omega), Out.ok_bind,
      ← Int.natCast_mul, hc, resizeInt_nat _ hbig]
    unfold copyIn
    simp only [Out.ok_bind]
    rw [if_neg (by omega), if_neg (by omega)]
    rfl
  · intro i hi j hj
    have hlt : i * m.nxyz + j < n * m.nxyz := by
      calc i * m.nxyz + j < i * m.nxyz + m.nxyz := by omega
        _ = (i + 1) * m.nxyz := by rw [Nat.succ_mul]
        _ ≤ n * m.nxyz := Nat.mul_le_mul_right _ hi
    rw [List.getElem?_take_of_lt hlt]

/-- Setting a table without columns is undefined, although the class accepts an empty vector. -/
theorem set_nothing (m : Mod) (t : SetTable) (l : List ℚ) (h : m.setWidth t = 0) :
    setTable (some m) t (some l) = .ub := by
  have e : resizeInt 0 = .ok 0 := resizeInt_nat 0 (by simp [intMax])
  unfold setTable mulInt
  dsimp only
  rw [h, if_pos (by unfold intMax; omega)]
  simp only [Int.natCast_zero, Int.mul_zero, Out.ok_bind, e]
  rfl

/-- C197, in part. `RM_GetBackwardMapping` gives the number of grid cells of a reaction cell and the grid cells
themselves, in the order of the mapping, if the size given is large enough; otherwise, or for a
number that is no reaction cell, it returns `IRM_INVALIDARG` and changes nothing. What is missing: the pointer
to the size must not be null (`size_null`). -/
theorem back_partial (m : Mod) (n : Int) (l : List Int) (s : Int)
    (hs : s ≤ l.length) :
    (∀ (k : Nat) (b : List Nat), n = k → m.back[k]? = some b → (b.length : Int) ≤ s →
      ∃ l', getBack (some m) n (some l) (some s) = .ok (some l', some b.length, .ok) ∧
        l'.length = l.length ∧ (∀ i (h : i < b.length), l'[i]? = some ((b[i] : Nat) : Int)) ∧
        ∀ i, b.length ≤ i → l'[i]? = l[i]?) ∧
    (∀ (k : Nat) (b : List Nat), n = k → m.back[k]? = some b → s < (b.length : Int) →
      getBack (some m) n (some l) (some s) = .ok (some l, some s, .invalidArg)) ∧
    (n < 0 ∨ (m.back.length : Int) ≤ n →
      getBack (some m) n (some l) (some s) = .ok (some l, some s, .invalidArg)) := by
  have look : ∀ (k : Nat) (b : List Nat), m.back[k]? = some b →
      ((0 : Int) ≤ k ∧ (k : Int) < m.back.length) ∧ Grid.idx m.back (k : Int) = .ok b := by
    intro k b hb
    have := (List.getElem?_eq_some_iff.mp hb).1
    refine ⟨⟨by omega, by omega⟩, ?_⟩
    unfold Grid.idx
    rw [if_neg (by omega), Int.toNat_natCast, hb]
  refine ⟨?_, ?_, ?_⟩
  · rintro k b rfl hb hle
    obtain ⟨h1, h2⟩ := look k b hb
    refine ⟨b.map (fun k : Nat => (k : Int)) ++ l.drop b.length, ?_, ?_, ?_, ?_⟩
    · unfold getBack
      dsimp only
      rw [if_pos h1, h2]
      simp only [Out.ok_bind]
      rw [if_pos hle, if_neg (by omega)]
      rfl
    · rw [List.length_append, List.length_map, List.length_drop]; omega
    · intro i hi
      rw [List.getElem?_append_left (by simpa using hi), List.getElem?_map,
        List.getElem?_eq_getElem hi]
      rfl
    · intro i hi
      rw [List.getElem?_append_right (by simpa using hi), List.getElem?_drop, List.length_map]
      congr 1
      omega
  · rintro k b rfl hb hlt
    obtain ⟨h1, h2⟩ := look k b hb
    unfold getBack
    dsimp only
    rw [if_pos h1, h2]
    simp only [Out.ok_bind]
    rw [if_neg (by omega)]
    rfl
  · intro h
    unfold getBack
    dsimp only
    rw [if_neg (by omega)]

/-- The pointer to the size is not tested. -/
theorem size_null (m : Mod) (k : Nat) (hk : k < m.back.length) (l : List Int) :
    getBack (some m) k (some l) none = .ub := by
  unfold getBack
  dsimp only
  rw [if_pos ⟨by omega, by omega⟩]
  unfold Grid.idx
  rw [if_neg (by omega), Int.toNat_natCast, List.getElem?_eq_getElem hk]
  rfl

namespace Demo

/-- Two grid cells, three components, no gas, one selected output with one column. -/
def m : Mod :=
  { nxyz := 2, comps := 3, gases := 0, species := 1, saveOn := false, cols := some 1,
    back := [[0, 1]], val := fun _ j i => 10 * i + j, fails := fun _ => none }

/-- The array has an entry more than the table. -/
theorem got : getTable (some m) .concentrations (some [7, 7, 7, 7, 7, 7, 7]) =
    .ok (some [0, 1, 10, 11, 20, 21, 7], .ok) := by decide +kernel

theorem got_hyps : m.Columns .concentrations 3 ∧ 0 < 3 * m.nxyz ∧
    ((3 * m.nxyz : Nat) : Int) ≤ intMax := ⟨rfl, by decide, by decide⟩

theorem no_gas : getTable (some m) .gasMoles (some [7]) = .ub := by decide +kernel

theorem species_off : getTable (some m) .speciesConc (some [7, 7]) = .ub := by decide +kernel

theorem none_selected : getTable (some { m with cols := none }) .selected (some []) = .throw := by
  decide +kernel

theorem set : setTable (some m) .concentrations (some [1, 2, 3, 4, 5, 6, 7]) =
    .ok (some [1, 2, 3, 4, 5, 6], .ok) := by decide +kernel

theorem back : getBack (some m) 0 (some [9, 9, 9]) (some 3) = .ok (some [0, 1, 9], some 2, .ok) := by
  decide +kernel

/-- A hundred million cells and 22 components. -/
theorem large : getTable (some { m with nxyz := 100000000, comps := 22 }) .concentrations (some []) =
    .ub := large_table _ _ (by decide)

end Demo

end Verif.CTables
