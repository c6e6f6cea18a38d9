import Verif.Pbasic.Spec
import Mathlib.Tactic.Linarith
import Mathlib.Tactic.FieldSimp
import Mathlib.Tactic.Ring
import Mathlib.Algebra.Order.Floor.Ring

/-!
# Operators: the model against the specification
-/

namespace Verif.Pbasic

@[simp] theorem Res.bind_ok {α β : Type} (a : α) (f : α → Res β) : (Res.ok a).bind f = f a := rfl
@[simp] theorem Res.bind_err {α β : Type} (f : α → Res β) : (Res.err : Res α).bind f = .err := rfl
@[simp] theorem Res.bind_ub {α β : Type} (f : α → Res β) : (Res.ub : Res α).bind f = .ub := rfl
@[simp] theorem Res.bind_out {α β : Type} (f : α → Res β) : (Res.out : Res α).bind f = .out := rfl

theorem level_prec (o : Op) : o.level = prec o := by cases o <;> rfl

theorem real_number (v : Val) : v.real = number v := by cases v <;> rfl

theorem fitLong_of (z : Int) [Decidable (IsLong z)] :
    fitLong z = if IsLong z then Res.ok z else .ub := by
  have e : IsLong z ↔ (-9223372036854775808 ≤ z ∧ z ≤ 9223372036854775807) := by
    unfold IsLong; omega
  unfold fitLong
  by_cases h : IsLong z
  · rw [if_pos h, if_pos (e.mp h)]
  · rw [if_neg h, if_neg (fun h' => h (e.mpr h'))]

theorem toLong_whole (x : ℚ) : toLong x = whole x := by
  classical
  unfold toLong whole
  have h : (if 0 ≤ x then x.floor else x.ceil) = (if x < 0 then -(⌊-x⌋) else ⌊x⌋ : Int) := by
    by_cases hx : 0 ≤ x
    · rw [if_pos hx, if_neg (by linarith)]
      rfl
    · rw [if_neg hx, if_pos (by linarith)]
      exact Rat.ceil_eq_neg_floor_neg x
  rw [h]
  exact fitLong_of _

theorem roundLong_nearest (x : ℚ) : roundLong x = nearest x := by
  classical
  unfold roundLong nearest
  exact fitLong_of _

theorem fmod_remainder {x y : ℚ} (hx : 0 ≤ x) (hy : y ≠ 0) : fmod x y = remainder x y := by
  unfold fmod remainder
  have hfl : ∀ q : ℚ, q.floor = ⌊q⌋ := fun _ => rfl
  have hcl : ∀ q : ℚ, q.ceil = ⌈q⌉ := fun q => by
    rw [Rat.ceil_eq_neg_floor_neg, hfl, Int.floor_neg, neg_neg]
  rcases lt_or_gt_of_ne hy with h | h
  · rw [abs_of_neg h]
    rcases eq_or_lt_of_le hx with h0 | h0
    · subst h0; simp [hfl]
    · have h1 : x / y < 0 := div_neg_of_pos_of_neg h0 h
      rw [if_neg (by linarith), hcl, div_neg, Int.floor_neg]
      push_cast
      ring
  · rw [abs_of_pos h]
    have h1 : 0 ≤ x / y := div_nonneg hx (le_of_lt h)
    rw [if_pos h1, hfl]

theorem strcmp_eq : ∀ s t : List Char, strcmp s t = .eq ↔ s = t
  | [], [] => by simp [strcmp]
  | [], _ :: _ => by simp [strcmp]
  | _ :: _, [] => by simp [strcmp]
  | a :: s, b :: t => by
      unfold strcmp
      by_cases h : a = b
      · rw [if_pos h, strcmp_eq s t, h]; simp
      · rw [if_neg h]
        constructor
        · intro h'; split at h' <;> cases h'
        · intro h'; cases h'; exact absurd rfl h

theorem strcmp_lt : ∀ s t : List Char, strcmp s t = .lt ↔ Before s t
  | [], [] => by
      simp only [strcmp, Before]
      exact ⟨fun h => (by cases h), fun h => (by cases h)⟩
  | [], _ :: _ => by simp only [strcmp, Before]; exact ⟨fun _ => List.Lex.nil, fun _ => trivial⟩
  | _ :: _, [] => by
      simp only [strcmp, Before]; exact ⟨fun h => (by cases h), fun h => (by cases h)⟩
  | a :: s, b :: t => by
      unfold strcmp
      by_cases h : a = b
      · rw [if_pos h, strcmp_lt s t, h]
        unfold Before
        constructor
        · exact fun h' => List.Lex.cons h'
        · intro h'
          cases h' with
          | cons h' => exact h'
          | rel h' => exact absurd h' (lt_irrefl _)
      · rw [if_neg h]
        by_cases h2 : a.toNat < b.toNat
        · rw [if_pos h2]; exact ⟨fun _ => List.Lex.rel h2, fun _ => rfl⟩
        · rw [if_neg h2]
          constructor
          · intro h'; cases h'
          · intro h'
            cases h' with
            | cons h' => exact absurd rfl h
            | rel h' => exact absurd h' h2

theorem strcmp_gt : ∀ s t : List Char, strcmp s t = .gt ↔ Before t s
  | [], [] => by
      simp only [strcmp, Before]
      exact ⟨fun h => (by cases h), fun h => (by cases h)⟩
  | [], _ :: _ => by
      simp only [strcmp, Before]; exact ⟨fun h => (by cases h), fun h => (by cases h)⟩
  | _ :: _, [] => by simp only [strcmp, Before]; exact ⟨fun _ => List.Lex.nil, fun _ => trivial⟩
  | a :: s, b :: t => by
      unfold strcmp
      by_cases h : a = b
      · rw [if_pos h, strcmp_gt s t, h]
        unfold Before
        constructor
        · exact fun h' => List.Lex.cons h'
        · intro h'
          cases h' with
          | cons h' => exact h'
          | rel h' => exact absurd h' (lt_irrefl _)
      · rw [if_neg h]
        have hn : a.toNat ≠ b.toNat := fun e => h (Char.toNat_inj.mp e)
        by_cases h2 : a.toNat < b.toNat
        · rw [if_pos h2]
          constructor
          · intro h'; cases h'
          · intro h'
            cases h' with
            | cons h' => exact absurd rfl h
            | rel h' => exact absurd h' (by omega)
        · rw [if_neg h2]
          exact ⟨fun _ => List.Lex.rel (by omega), fun _ => rfl⟩

theorem cmpNum_eq (x y : ℚ) : cmpNum x y = .eq ↔ x = y := by
  unfold cmpNum; split <;> rename_i h
  · exact ⟨fun _ => h, fun _ => rfl⟩
  · constructor
    · intro h'; split at h' <;> cases h'
    · intro h'; exact absurd h' h

theorem cmpNum_lt (x y : ℚ) : cmpNum x y = .lt ↔ x < y := by
  unfold cmpNum; split <;> rename_i h
  · subst h; exact ⟨fun h => (by cases h), fun h => absurd h (lt_irrefl _)⟩
  · split <;> rename_i h2
    · exact ⟨fun _ => h2, fun _ => rfl⟩
    · exact ⟨fun h => (by cases h), fun h => absurd h h2⟩

theorem cmpNum_gt (x y : ℚ) : cmpNum x y = .gt ↔ y < x := by
  unfold cmpNum; split <;> rename_i h
  · subst h; exact ⟨fun h => (by cases h), fun h => absurd h (lt_irrefl _)⟩
  · split <;> rename_i h2
    · exact ⟨fun h => (by cases h), fun h => absurd h (by linarith)⟩
    · refine ⟨fun _ => lt_of_le_of_ne (by linarith) (Ne.symm h), fun _ => rfl⟩

/-- A comparison through an `Ordering` is the comparison itself. -/
theorem relBit_holds {α : Type} {lt : α → α → Prop} {c : Ordering} {x y : α}
    (h1 : c = .eq ↔ x = y) (h2 : c = .lt ↔ lt x y) (h3 : c = .gt ↔ lt y x) (o : Op) :
    relBit o c = true ↔ Holds lt o x y := by
  cases c <;> cases o <;> simp_all [relBit, Holds]

theorem ofBool_truth {b : Bool} {p : Prop} (h : b = true ↔ p) : Res.ok (ofBool b) = truth p := by
  classical
  unfold ofBool truth
  by_cases hp : p
  · rw [if_pos hp, if_pos (h.mpr hp)]
  · rw [if_neg hp, if_neg (fun hb => hp (h.mp hb))]

theorem even_iff (z : Int) : z % 2 = 0 ↔ Even z := Int.even_iff.symm

theorem apply_numbers (A : Arith) (o : Op) (x y : ℚ) :
    applyOp A o (.num x) (.num y) = onNumbers A o x y := by
  have hr : ∀ o : Op, Res.ok (ofBool (relBit o (cmpNum x y)))
      = truth (Holds (fun a b : ℚ => a < b) o x y) := fun o =>
    ofBool_truth (relBit_holds (cmpNum_eq x y) (cmpNum_lt x y) (cmpNum_gt x y) o)
  cases o
  case pow =>
    simp only [applyOp, onNumbers]
    by_cases h : 0 < x
    · rw [if_pos h, if_pos (le_of_lt h), if_pos h]
    · rw [if_neg h]
      by_cases h0 : x = 0
      · subst h0; simp
      · rw [if_neg h, if_neg h0, if_neg (fun h1 => h (lt_of_le_of_ne h1 (Ne.symm h0))), toLong_whole]
        congr 1
        funext z
        by_cases hz : (z : ℚ) = y
        · rw [if_pos hz, if_neg (fun h => h hz.symm)]
          by_cases he : Even z
          · rw [if_pos he, if_pos ((even_iff z).mpr he), one_mul]
          · rw [if_neg he, if_neg (fun h => he ((even_iff z).mp h)), neg_one_mul]
        · rw [if_neg hz, if_pos (fun h => hz h.symm)]
  case mul => rfl
  case div =>
    simp only [applyOp, onNumbers]
    by_cases h : y = 0
    · rw [if_pos h, if_neg (fun h' => h' h)]
    · rw [if_neg h, if_pos h]
  case mod =>
    simp only [applyOp, onNumbers]
    by_cases h : x = 0
    · rw [if_pos h, if_neg (fun h' => h' h)]
    · rw [if_neg h, if_pos h]
      by_cases hy : y = 0
      · rw [if_pos hy, if_pos hy]
      · rw [if_neg hy, if_neg hy]
        have e : (1 : ℚ) / 100000000000000 = 1 / 10 ^ 14 := by norm_num
        have h2 : |x| / x = if 0 < x then 1 else -1 := by
          by_cases hx : 0 < x
          · rw [if_pos hx, abs_of_pos hx, div_self h]
          · rw [if_neg hx, abs_of_neg (lt_of_le_of_ne (not_lt.mp hx) h), neg_div, div_self h]
        rw [e, h2, fmod_remainder (add_nonneg (abs_nonneg x) (by norm_num)) hy]
  case add => rfl
  case sub => rfl
  case and => simp only [applyOp, onNumbers, toLong_whole, Int.bitwise_and]
  case or => simp only [applyOp, onNumbers, toLong_whole, Int.bitwise_or]
  case xor => simp only [applyOp, onNumbers, toLong_whole, Int.bitwise_xor]
  all_goals exact hr _

theorem apply_texts (A : Arith) (o : Op) (s t : List Char) :
    applyOp A o (.str s) (.str t) = onTexts o s t := by
  have hr : ∀ o : Op, Res.ok (ofBool (relBit o (strcmp s t))) = truth (Holds Before o s t) := fun o =>
    ofBool_truth (relBit_holds (strcmp_eq s t) (strcmp_lt s t) (strcmp_gt s t) o)
  cases o <;> first | rfl | exact hr _

theorem apply_values (A : Arith) (o : Op) (x y : Val) : applyOp A o x y = onValues A o x y := by
  cases x <;> cases y
  · exact apply_numbers A o _ _
  · cases o <;> rfl
  · cases o <;> rfl
  · exact apply_texts A o _ _

end Verif.Pbasic
