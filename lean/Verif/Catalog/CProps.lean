import Verif.Catalog.CModel
import Verif.Catalog.Props

/-! # Charges and diffusion coefficients of the C interface -/

namespace Verif.Catalog

/-! ## Specification -/

/-- What the caller asks for. -/
def Raw.value (x : Raw) : Column → ℚ
  | .z => x.z
  | .d25 => x.dw

/-! ## Theorems -/

theorem column_length {s : List Raw} {l : Lists} (h : Right s l) (w : Column) : (l.column w).length = l.names.length := by
  cases w
  · exact h.lengths.1
  · exact h.lengths.2.1

/-- **C215, part.** After every history of calls that found a species, with an array of at least as many entries as there are names: the
function succeeds, entry `r` is the value of the species of the database with the name at `r`, and the rest of the array is as before.

Missing: modules without species, `column_fresh`. -/
theorem column_partial (rs later : List Run) (s : List Raw) (ph : List Phase) (deleted : Bool) (hl : ∀ r ∈ later, r = .failed)
    (x : Raw) (hx : x ∈ s) (hin : x.inn = true) (w : Column) (a : List ℚ)
    (ha : (after (rs ++ .done s ph deleted :: later)).lists.names.length ≤ a.length) :
    ∃ a' : List ℚ, getColumn (some (after (rs ++ .done s ph deleted :: later))) w (some a) = .ok (some a', .ok) ∧ a'.length = a.length ∧
      (∀ (r : Nat) n, (after (rs ++ .done s ph deleted :: later)).lists.names[r]? = some n →
        ∃ y ∈ s, y.inn = true ∧ y.name = n ∧ a'[r]? = some (y.value w)) ∧
      ∀ r : Nat, (after (rs ++ .done s ph deleted :: later)).lists.names.length ≤ r → a'[r]? = a[r]? := by
  have h := species_lists rs s ph deleted later hl
  generalize after (rs ++ .done s ph deleted :: later) = st at h ha ⊢
  have hc := column_length h w
  have hne : st.lists.column w ≠ [] := by
    obtain ⟨k, hk⟩ := List.mem_iff_getElem?.mp hx
    obtain ⟨r, hr⟩ := h.all k x hk hin
    obtain ⟨i, y, -, -, -, e⟩ := h.entry _ _ hr
    have hlt := (List.getElem?_eq_some_iff.mp e.name).1
    intro h0
    rw [h0] at hc
    simp at hc
    omega
  refine ⟨st.lists.column w ++ a.drop (st.lists.column w).length, ?_, ?_, fun r n hr => ?_, fun r hr => ?_⟩
  · unfold getColumn CArrays.copyOut
    dsimp only
    rw [if_neg hne, if_neg (by omega)]
    rfl
  · simp only [List.length_append, List.length_drop]
    omega
  · have hlt := (List.getElem?_eq_some_iff.mp hr).1
    obtain ⟨k, hk⟩ := h.full r hlt
    obtain ⟨i, y, -, hy, hyi, e⟩ := h.entry _ _ hk
    refine ⟨y, List.mem_of_getElem? hy, hyi, ?_, ?_⟩
    · have := e.name
      rw [hr] at this
      exact (Option.some.inj this).symm
    · rw [List.getElem?_append_left (by omega)]
      cases w
      · exact e.z
      · exact e.d
  · rw [List.getElem?_append_right (by omega), List.getElem?_drop]
    congr 1
    omega

/-- **C215, violated.** As long as no call of `FindComponents` got to the species, both functions take the address of the first entry of an
empty vector, whatever array is passed. -/
theorem column_fresh (rs : List Run) (h : ∀ r ∈ rs, r = .failed) (w : Column) (a : List ℚ) :
    getColumn (some (after rs)) w (some a) = .ub := by
  have : after rs = new := by
    unfold after
    induction rs with
    | nil => rfl
    | cons r rs ih =>
      rw [List.foldl_cons, h r List.mem_cons_self]
      exact ih fun q hq => h q (List.mem_cons_of_mem _ hq)
  rw [this]
  cases w <;> rfl

/-- **C215.** An array with too few entries is overrun. -/
theorem column_short (st : State) (w : Column) (a : List ℚ) (h : a.length < (st.lists.column w).length) :
    getColumn (some st) w (some a) = .ub := by
  unfold getColumn CArrays.copyOut
  dsimp only
  rw [if_pos h, ite_self]
  rfl

namespace Demo

/-- Two of three species in the model, an array of three entries. -/
theorem column_case : getColumn (some (after [.failed, .done [water, absent, sodium] [halite] true])) .z (some [7, 8, 9]) =
      .ok (some [0, 1, 9], .ok) ∧
    getColumn (some (after [.failed, .done [water, absent, sodium] [halite] true])) .d25 (some [7, 8, 9]) =
      .ok (some [0, 1 / 750000000, 9], .ok) := by
  constructor <;> decide +kernel

end Demo

end Verif.Catalog
