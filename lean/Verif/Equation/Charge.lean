import Verif.Equation.Check

/-! # Reading charges -/

namespace Verif.Equation

open Verif.Formula

/-- What ends a name or a charge: the end of the text, or a sign or `=`. -/
def Ends (k : List Char) : Prop := k = [] ∨ ∃ c r, k = c :: r ∧ (c = '+' ∨ c = '-' ∨ c = '=')

theorem nameChars_text {k : List Char} (hk : Ends k) (s : List Char) : ∀ b, closed b s →
    nameChars b (s ++ k) = .ok (s, k) := by
  induction s with
  | nil =>
    intro b h
    have : b = false := h
    subst this
    rcases hk with rfl | ⟨c, r, rfl, h⟩
    · rfl
    · show (if c = '+' ∨ c = '-' ∨ c = '=' then _ else _) = _
      rw [if_pos h]
  | cons c s ih =>
    intro b h
    cases b with
    | true =>
      show ((nameChars (c != ']') (s ++ k)).bind fun t => .ok (c :: t.1, t.2)) = _
      rw [ih _ h]; rfl
    | false =>
      obtain ⟨h1, h2, h3, h4⟩ := h
      show (if c = '+' ∨ c = '-' ∨ c = '=' then _ else
        ((nameChars (c == '[') (s ++ k)).bind fun t => .ok (c :: t.1, t.2))) = _
      rw [if_neg (by simp [h1, h2, h3]), ih _ h4]; rfl

theorem digits_toDigits (n : Nat) : digits (Nat.toDigits 10 n) = n := by
  have := Nat.ofDigitChars_ten_toDigits (n := n)
  exact this

theorem toDigits_head (n : Nat) (h : 0 < n) : ∃ c r, Nat.toDigits 10 n = c :: r ∧ c ≠ '0' := by
  induction n using Nat.strongRecOn with
  | ind n ih =>
    by_cases hn : n < 10
    · refine ⟨n.digitChar, [], Nat.toDigits_of_lt_base hn, ?_⟩
      have : ∀ k : Fin 10, 0 < k.val → k.val.digitChar ≠ '0' := by decide
      exact this ⟨n, hn⟩ h
    · rw [Nat.toDigits_of_base_le (by omega) (by omega)]
      obtain ⟨c, r, e, hc⟩ := ih (n / 10) (by omega) (by omega)
      exact ⟨c, r ++ [(n % 10).digitChar], by rw [e]; simp, hc⟩

theorem toDigits_digit (n : Nat) : ∀ c ∈ Nat.toDigits 10 n, c.isDigit = true :=
  fun _ h => Nat.isDigit_of_mem_toDigits (by omega) (by omega) h

theorem sign_digit {c : Char} (h : c.isDigit = true) : isSign c = false := by
  by_contra hn
  simp only [isSign, Bool.not_eq_false, Bool.or_eq_true, beq_iff_eq] at hn
  rcases hn with rfl | rfl <;> simp at h

theorem takeWhile_append_stop {p : Char → Bool} (l k : List Char) (hl : ∀ c ∈ l, p c = true)
    (hk : ∀ c, k.head? = some c → p c = false) :
    (l ++ k).takeWhile p = l ∧ (l ++ k).dropWhile p = k := by
  induction l with
  | nil =>
    cases k with
    | nil => simp
    | cons c k => simp [hk c rfl]
  | cons c l ih =>
    have := ih (fun c hc => hl c (by simp [hc]))
    simp [hl c (by simp), this.1, this.2]

theorem toInt_small {v : Int} (h1 : -2 ^ 31 < v) (h2 : v < 2 ^ 31) : toInt v = v := by
  unfold toInt
  rw [min_eq_right (by omega), max_eq_right (by omega), Int.bmod_def]
  split_ifs <;> omega

/-- The text of a charge depends on its value only. -/
theorem chargeText_name {c : Char} {i : Int} (h1 : -2 ^ 31 < i) (hc : i ≠ 0 → c = signChar (decide (i < 0))) :
    chargeText c i = .ok (chgName i, i) := by
  unfold chargeText chgName
  rw [if_neg (by omega)]
  by_cases h0 : i = 0
  · simp [h0]
  · rw [if_neg h0, if_neg h0]
    by_cases ha : i.natAbs = 1
    · rw [if_pos ha, if_pos ha, hc h0]
    · rw [if_neg ha, if_neg ha]
      simp [signChar]

/-- `strtol` on a sign and a number without superfluous zeros. -/
theorem strtol_text (neg : Bool) (n : Nat) (k : List Char)
    (hk : ∀ c, k.head? = some c → c.isDigit = false) :
    strtol (signChar neg :: Nat.toDigits 10 n ++ k) = some (if neg then -(n : Int) else n, k) := by
  have hu : unsign (signChar neg :: (Nat.toDigits 10 n ++ k)) = (neg, Nat.toDigits 10 n ++ k) := by
    cases neg <;> rfl
  rcases Nat.eq_zero_or_pos n with rfl | hn
  · rw [Nat.toDigits_zero] at *
    unfold strtol
    rw [List.cons_append, hu]
    simp only [List.cons_append, List.nil_append, if_true]
    have := takeWhile_append_stop (p := isOct) [] k (by simp) (by
      intro c hc; simp [isOct, hk c hc])
    rw [List.nil_append] at this
    rw [this.1, this.2]
    simp [octal]
  · obtain ⟨c, r, e, hc⟩ := toDigits_head n hn
    have hcd : c.isDigit = true := toDigits_digit n c (by rw [e]; simp)
    have ht := takeWhile_append_stop (p := Char.isDigit) (Nat.toDigits 10 n) k (toDigits_digit n) hk
    unfold strtol
    rw [List.cons_append, hu]
    rw [e] at ht ⊢
    simp only [List.cons_append] at ht ⊢
    rw [if_neg hc, if_pos hcd, ht.1, ht.2, ← e, digits_toDigits]

theorem signChar_ne_digit {neg : Bool} {c : Char} (h : c.isDigit = true) : c ≠ signChar neg := by
  rintro rfl; cases neg <;> simp [signChar] at h

/-- **C170, charges.** A charge is read as it is meant, in whichever of the forms it is written, and
enters the name in one form. -/
theorem charge_read (g : Chg) (hg : g.Good) : getCharge g.text = .ok (chgName g.value, g.value) := by
  cases g with
  | none => rfl
  | row neg n =>
    obtain ⟨h1, h2⟩ := hg
    obtain ⟨m, rfl⟩ : ∃ m, n = m + 1 := ⟨n - 1, by omega⟩
    simp only [Chg.text, List.replicate_succ, getCharge]
    rw [if_neg (by cases neg <;> simp [signChar, isSign]), if_pos (by
      rw [List.all_eq_true]
      intro x hx
      rw [List.eq_of_mem_replicate hx]; simp)]
    have e : (if signChar neg = '-' then -(((List.replicate m (signChar neg)).length + 1 : Nat) : Int)
        else (((List.replicate m (signChar neg)).length + 1 : Nat) : Int)) = (Chg.row neg (m + 1)).value := by
      cases neg <;> simp [signChar, Chg.value]
    rw [e]
    apply chargeText_name
    · cases neg <;> simp only [Chg.value, if_true, Bool.false_eq_true, if_false] <;> omega
    · intro _
      cases neg with
      | true => 
        have : (Chg.row true (m + 1)).value < 0 := by simp only [Chg.value, if_true]; omega
        rw [decide_eq_true this]
      | false =>
        have : ¬ (Chg.row false (m + 1)).value < 0 := by
          simp only [Chg.value, Bool.false_eq_true, if_false]; omega
        rw [decide_eq_false this]
  | num neg n z =>
    have hn : n < 2 ^ 31 := hg
    have hne : ∃ c r, Nat.toDigits 10 n = c :: r := by
      cases h : Nat.toDigits 10 n with
      | nil => exact absurd h Nat.toDigits_ne_nil
      | cons c r => exact ⟨c, r, rfl⟩
    obtain ⟨c, r, e⟩ := hne
    have hcd : c.isDigit = true := toDigits_digit n c (by rw [e]; simp)
    have key : chargeText (signChar neg) (toInt (if neg then -(n : Int) else n)) =
        .ok (chgName (Chg.num neg n z).value, ((Chg.num neg n z).value : ℚ)) := by
      have hv : (if neg then -(n : Int) else n) = (Chg.num neg n z).value := rfl
      rw [toInt_small (by split_ifs <;> omega) (by split_ifs <;> omega), hv]
      apply chargeText_name
      · rw [← hv]; split_ifs <;> omega
      · intro h0
        rw [← hv] at h0 ⊢
        cases neg with
        | true =>
          rw [if_pos rfl] at h0 ⊢
          rw [decide_eq_true (by omega)]
        | false =>
          rw [if_neg (by simp)] at h0 ⊢
          rw [decide_eq_false (by omega)]
    have hs := strtol_text neg n (match z with
      | .none => []
      | some k => '.' :: List.replicate k '0') (by
        intro d hd
        cases z with
        | none => simp at hd
        | some k => simp only [List.head?_cons, Option.some.injEq] at hd; subst hd; rfl)
    have hsg : isSign (signChar neg) = true := by cases neg <;> rfl
    have hall : ∀ k : List Char, (Nat.toDigits 10 n ++ k).all (· == signChar neg) = false := by
      intro k
      rw [e, List.cons_append, List.all_cons]
      rw [beq_false_of_ne (signChar_ne_digit hcd)]; rfl
    cases z with
    | none =>
      simp only [Chg.text, List.append_nil] at hs ⊢
      have ha := hall []
      rw [List.append_nil] at ha
      simp only [getCharge]
      rw [if_neg (by rw [hsg]; simp), if_neg (by rw [ha]; simp), hs]
      exact key
    | some k =>
      simp only [Chg.text, List.cons_append] at hs ⊢
      simp only [getCharge]
      rw [if_neg (by rw [hsg]; simp), if_neg (by rw [hall]; simp), hs]
      dsimp only
      rw [if_pos rfl, if_pos (by
        rw [List.all_eq_true]
        intro x hx
        rw [List.eq_of_mem_replicate hx]; simp)]
      exact key

end Verif.Equation
