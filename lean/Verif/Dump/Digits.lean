import Mathlib.Algebra.Order.Field.Rat
import Mathlib.Data.Rat.Floor
import Mathlib.Data.Int.Log
import Mathlib.Algebra.Order.Round
import Mathlib.Tactic.Linarith
import Mathlib.Tactic.FieldSimp
import Mathlib.Tactic.Ring
import Mathlib.Tactic.NormNum
import Mathlib.Tactic.Positivity

/-!
# C97: numbers in dumps

The texts are written with `precision(DBL_DIG - 1)`, that is 14 significant digits, e.g.
`/repo/src/IPhreeqcPhast/IPhreeqc/phreeqcpp/StorageBin.cxx:921`, `Solution.cxx:163`,
`NameDouble.cxx:116`.
-/

namespace Verif.Dump

/-- The number that 14 significant digits of `q` stand for. Simplification: a number exactly in
the middle is rounded up, not to even. -/
def sig14 (q : ℚ) : ℚ :=
  if q = 0 then 0
  else (round (q * 10 ^ (13 - Int.log 10 |q|)) : ℚ) * 10 ^ (Int.log 10 |q| - 13)

/-- **C97 (partial).** A number read back from a dump differs from the number dumped by at most
a relative error of `5e-14`. -/
theorem digits_partial (q : ℚ) : |sig14 q - q| ≤ |q| * (5 / 10 ^ 14) := by
  unfold sig14
  split
  · rename_i h; simp [h]
  · rename_i h
    have hq : 0 < |q| := abs_pos.mpr h
    have hlog : (10 : ℚ) ^ Int.log 10 |q| ≤ |q| := by
      have := Int.zpow_log_le_self (b := 10) (r := |q|) (by norm_num) hq
      exact_mod_cast this
    generalize Int.log 10 |q| = e at hlog
    have hr := abs_sub_round (q * 10 ^ (13 - e))
    have h1 : (10 : ℚ) ^ (13 - e) * 10 ^ (e - 13) = 1 := by
      rw [← zpow_add₀ (by norm_num)]
      simp
    have hpos : (0 : ℚ) < 10 ^ (e - 13) := zpow_pos (by norm_num) _
    have h2 : (round (q * 10 ^ (13 - e)) : ℚ) * 10 ^ (e - 13) - q =
        -((q * 10 ^ (13 - e) - round (q * 10 ^ (13 - e))) * 10 ^ (e - 13)) := by
      have : q = q * ((10 : ℚ) ^ (13 - e) * 10 ^ (e - 13)) := by rw [h1, mul_one]
      calc _ = (round (q * 10 ^ (13 - e)) : ℚ) * 10 ^ (e - 13) -
            q * ((10 : ℚ) ^ (13 - e) * 10 ^ (e - 13)) := by rw [← this]
        _ = _ := by ring
    rw [h2, abs_neg, abs_mul, abs_of_pos hpos]
    have h3 : (10 : ℚ) ^ (e - 13) = 10 ^ e / 10 ^ 13 := by
      rw [zpow_sub₀ (by norm_num)]
      norm_num
    have h4 : |q * 10 ^ (13 - e) - round (q * 10 ^ (13 - e))| * 10 ^ (e - 13) ≤
        1 / 2 * 10 ^ (e - 13) := mul_le_mul_of_nonneg_right hr hpos.le
    refine h4.trans ?_
    rw [h3]
    have h5 : (10 : ℚ) ^ e / 10 ^ 13 ≤ |q| / 10 ^ 13 := by
      apply div_le_div_of_nonneg_right hlog (by positivity)
    calc 1 / 2 * ((10 : ℚ) ^ e / 10 ^ 13) ≤ 1 / 2 * (|q| / 10 ^ 13) := by linarith
      _ = |q| * (5 / 10 ^ 14) := by ring

/-- Numbers with at most 14 significant digits are kept exactly: what is written by hand survives
a dump. -/
theorem digits_exact (m : Int) (e : Int) (hm : m ≠ 0) (h : |m| < 10 ^ 14) :
    sig14 ((m : ℚ) * 10 ^ e) = m * 10 ^ e := by
  have hm' : (m : ℚ) ≠ 0 := by exact_mod_cast hm
  have hp : (0 : ℚ) < 10 ^ e := zpow_pos (by norm_num) _
  have hne : (m : ℚ) * 10 ^ e ≠ 0 := mul_ne_zero hm' (ne_of_gt hp)
  have hq : 0 < |(m : ℚ) * 10 ^ e| := abs_pos.mpr hne
  have hlt : Int.log 10 |(m : ℚ) * 10 ^ e| < 14 + e := by
    rw [← Int.lt_zpow_iff_log_lt (by norm_num) hq]
    rw [abs_mul, abs_of_pos hp]
    have : |(m : ℚ)| < 10 ^ 14 := by exact_mod_cast h
    push_cast
    rw [zpow_add₀ (by norm_num)]
    exact mul_lt_mul_of_pos_right (by exact_mod_cast this) hp
  unfold sig14
  rw [if_neg hne]
  generalize Int.log 10 |(m : ℚ) * 10 ^ e| = l at hlt
  obtain ⟨d, hd⟩ : ∃ d : Nat, e + (13 - l) = d := ⟨(e + (13 - l)).toNat, by omega⟩
  have e1 : (m : ℚ) * 10 ^ e * 10 ^ (13 - l) = ((m * 10 ^ d : Int) : ℚ) := by
    rw [mul_assoc, ← zpow_add₀ (by norm_num), hd]
    push_cast
    rw [zpow_natCast]
  rw [e1, round_intCast, ← e1, mul_assoc, ← zpow_add₀ (by norm_num)]
  simp

/-- **C97 violated.** The doubles `1` and `1 + 2^-52` have the same text, so no reader can give
back both. -/
theorem digits_violated : sig14 (1 + 1 / 2 ^ 52) = sig14 1 ∧ (1 : ℚ) + 1 / 2 ^ 52 ≠ 1 := by
  have l1 : Int.log 10 |(1 : ℚ)| = 0 := by simp
  have l2 : Int.log 10 |(1 : ℚ) + 1 / 2 ^ 52| = 0 := by
    have ha : |(1 : ℚ) + 1 / 2 ^ 52| = 1 + 1 / 2 ^ 52 := by norm_num
    rw [ha]
    apply le_antisymm
    · have : Int.log 10 ((1 : ℚ) + 1 / 2 ^ 52) < 1 := by
        rw [← Int.lt_zpow_iff_log_lt (by norm_num) (by norm_num)]
        norm_num
      omega
    · rw [← Int.zpow_le_iff_le_log (by norm_num) (by norm_num)]
      norm_num
  constructor
  · unfold sig14
    rw [if_neg (by norm_num), if_neg (by norm_num), l1, l2]
    have r1 : round (((1 : ℚ) + 1 / 2 ^ 52) * 10 ^ ((13 : ℤ) - 0)) = 10 ^ 13 := by
      rw [round_eq, Int.floor_eq_iff]
      norm_num
    have r2 : round ((1 : ℚ) * 10 ^ ((13 : ℤ) - 0)) = 10 ^ 13 := by
      rw [round_eq, Int.floor_eq_iff]
      norm_num
    rw [r1, r2]
  · norm_num

end Verif.Dump
