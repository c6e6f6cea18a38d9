import Verif.FString.Props

/-!
# Cases for strings handed to callers
-/

namespace Verif.FString

/-- New memory. -/
def hash (k : Nat) : Str := List.replicate k '#'

example : Plain "Ca".toList ∧ NoTrail "Ca".toList := by decide

/-- A text of three characters in buffers of 6, 4 and 3. -/
example : padC (hash 6) "Cal".toList 6 = .ok (['C', 'a', 'l', nul, '#', '#'], .ok) ∧
    padC (hash 6) "Cal".toList 4 = .ok (['C', 'a', 'l', nul, '#', '#'], .invalidArg) ∧
    padC (hash 6) "Cal".toList 3 = .ok (['C', 'a', nul, '#', '#', '#'], .invalidArg) := by
  decide

/-- **C58 violated.** The statement about the C interface fails for the exact fit. -/
theorem report_violated : ¬ ∀ (buf src : Str) (n : Nat), Plain src → 0 < n → n ≤ buf.length →
    ∃ b st, padC buf src n = .ok (b, st) ∧ (st = .ok ↔ readC b = some src) := by
  intro h
  obtain ⟨b, st, h1, h2⟩ := h (hash 4) "Cal".toList 4 (by decide) (by decide) (by decide)
  have e : padC (hash 4) "Cal".toList (4 : Nat) = .ok (['C', 'a', 'l', nul], .invalidArg) := by decide
  rw [e] at h1
  simp only [Out.ok.injEq, Prod.mk.injEq] at h1
  obtain ⟨rfl, rfl⟩ := h1
  exact absurd (h2.mpr (by decide)) (by decide)

/-- `RM_GetSIName` with the number of names as index. -/
example : getC .si ["Calcite".toList] 1 (hash 20) 20 = .ub := by decide

/-- `RM_GetComponent` into a buffer of the length of the name: no NUL. -/
example : getC .component ["H2O".toList] 0 (hash 3) 3 = .ok ("H2O".toList, .ok) ∧
    readC "H2O".toList = none := by decide

/-- Fortran: a list that meets the hypotheses of `names_partial`. -/
example : (∀ s ∈ ["H".toList, "Ca".toList], Good 2048 s) ∧ ∃ s ∈ ["H".toList, "Ca".toList], s ≠ [] := by
  refine ⟨?_, "H".toList, by simp, by decide⟩
  intro s hs
  simp only [List.mem_cons, List.not_mem_nil, or_false] at hs
  rcases hs with rfl | rfl
  · exact ⟨by decide, by decide, by decide⟩
  · exact ⟨by decide, by decide, by decide⟩

/-- A name that is longer than the local variable is cut by the second loop, which then reports
success; shown for any length above 2048. -/
theorem long_name_cut (junk : Nat → Str) (hj : ∀ k, (junk k).length = k) (s : Str) (hs : Plain s)
    (hl : 2048 < s.length) (hn : NoTrail (s.take 2048)) :
    getNames junk [s] = .ok ([s.take 2048], some .ok) := by
  have call : ∀ buf : Str, buf.length = 2048 →
      getF [s] ((0 : Nat) + 1 : Int) buf buf.length = .ok (s.take 2048, .ok) := by
    intro buf hb
    obtain ⟨b, h1, h2⟩ := fortran_truncates_silently [s] 0 s rfl hs 2048 (by omega) buf (by omega)
    rw [hb]
    have e : ((0 : Nat) + 1 : Int) = ((0 + 1 : Nat) : Int) := by omega
    have hz : 2048 - s.length = 0 := by omega
    rw [e, h1]
    have hbl : b.length = 2048 := by
      have := padChars_length 2048 s
      unfold getF at h1
      rw [if_pos ⟨by omega, by omega, by simp⟩] at h1
      simp only [toSize_nat] at h1
      have e0 : (((0 + 1 : Nat) : Int) - 1).toNat = 0 := by omega
      rw [e0] at h1
      simp only [List.getElem?_cons_zero] at h1
      unfold padF at h1
      rw [store_zero (by omega)] at h1
      simp only [Out.ok_bind, Out.ok.injEq, Prod.mk.injEq, and_true] at h1
      rw [← h1]
      simp; omega
    rw [List.take_of_length_le (by omega), hz] at h2
    rw [h2]
    simp
  have hlen : (s.take 2048).length = 2048 := by simp; omega
  have ht : trimR (s.take 2048) = s.take 2048 := by
    have := trimR_pad hn 0
    simpa using this
  have hr : List.range ([s] : List Str).length = [0] := rfl
  unfold getNames
  rw [hr]
  simp only [pass1, pass2, call _ (hj 2048), Out.ok_bind, ht, hlen]
  simp only [Nat.zero_lt_succ, gt_iff_lt, if_true]
  rw [call _ (hj 2048)]
  simp

end Verif.FString
