import Verif.Kinetics.Loop
import Mathlib.Algebra.BigOperators.Fin
import Mathlib.Algebra.Order.BigOperators.Group.Finset
import Mathlib.Tactic.NormNum

/-!
# What follows from a sequence of steps
-/

namespace Verif.Kinetics

open Spec

variable {n : Nat} {κ σ π ρ : Type} {c : Chem n κ σ π ρ} {M : κ → V n → ℚ → ℚ → Nat → V n → Prop} {start : ℚ}
  {x y : κ} {m m' : V n} {l : List (Step n)}

theorem Path.pos (h : Path c M start x m l y m') : ∀ st ∈ l, 0 < st.h := by
  induction h with
  | nil => intro st hst; cases hst
  | zero _ hp _ ih | step _ hp _ _ _ ih =>
    intro st hst
    rcases List.mem_append.1 hst with h | h
    · exact ih st h
    · rw [List.mem_singleton.1 h]; exact hp

theorem Path.of_nil (h : Path c M start x m [] y m') : y = x ∧ m' = m := by
  generalize hl : ([] : List (Step n)) = l at h
  cases h with
  | nil => exact ⟨rfl, rfl⟩
  | zero => simp at hl
  | step => simp at hl

theorem span_nonneg (h : ∀ st ∈ l, 0 < st.h) : 0 ≤ span l := by
  apply List.sum_nonneg
  intro a ha
  obtain ⟨st, hst, rfl⟩ := List.mem_map.1 ha
  exact (h st hst).le

theorem Path.mono {M' : κ → V n → ℚ → ℚ → Nat → V n → Prop} (h : Path c M start x m l y m')
    (hm : ∀ y m t h b v, 0 < h → M y m t h b v → M' y m t h b v) : Path c M' start x m l y m' := by
  induction h with
  | nil => exact .nil
  | zero _ hp hz ih => exact ih.zero hp (hm _ _ _ _ _ _ hp hz)
  | step _ hp hb hz hr ih => exact ih.step hp hb (hm _ _ _ _ _ _ hp hz) hr

theorem atMost_le (m w : V n) (j : Fin n) : atMost m w j ≤ m j := min_le_left _ _

theorem rest_nonneg (m v : V n) (j : Fin n) : 0 ≤ rest m v j := by
  simp only [rest]
  split_ifs with h
  · exact le_refl _
  · exact le_trans (by norm_num) (not_lt.1 h)

theorem rest_close {m v : V n} {j : Fin n} (h : v j ≤ m j) : |rest m v j - (m j - v j)| ≤ 1 / 10 ^ 30 := by
  simp only [rest]
  split_ifs with h'
  · rw [zero_sub, abs_neg, abs_of_nonneg (by linarith)]
    exact h'.le
  · rw [sub_self, abs_zero]; norm_num

theorem may_le {tol : V n} {one : Bool} {t h : ℚ} {b : Nat} {v : V n} (hb : b ≠ 0)
    (h : May c tol one x m t h b v) (j : Fin n) : v j ≤ m j := by
  rcases h with ⟨e, -⟩ | ⟨-, h⟩ | ⟨-, h⟩ | ⟨-, h⟩ | ⟨-, h⟩
  · exact absurd e hb
  · obtain ⟨_, _, _, _, _, -, rfl, -⟩ := h
    exact atMost_le _ _ _
  · obtain ⟨_, _, -, -, -, rfl⟩ := h
    exact atMost_le _ _ _
  · obtain ⟨_, _, _, -, -, -, -, -, rfl⟩ := h
    exact atMost_le _ _ _
  · obtain ⟨_, _, _, _, _, _, _, _, _, -, -, -, -, -, -, -, -, -, -, -, rfl⟩ := h
    exact atMost_le _ _ _

/-- The steps fit together. -/
def Chain : V n → List (Step n) → V n → Prop
  | m, [], m' => m = m'
  | m, st :: l, m' => st.before = m ∧ Chain st.after l m'

theorem chain_append (a b : V n) (l : List (Step n)) (st : Step n) (h : Chain a l b) (hb : st.before = b) :
    Chain a (l ++ [st]) st.after := by
  induction l generalizing a with
  | nil => cases h; exact ⟨hb, rfl⟩
  | cons s l ih => exact ⟨h.1, ih _ h.2⟩

theorem Path.chain (h : Path c M start x m l y m') : Chain m l m' := by
  induction h with
  | nil => rfl
  | zero _ _ _ ih => exact chain_append _ _ _ _ ih rfl
  | step _ _ _ _ _ ih => exact chain_append _ _ _ _ ih rfl

/-- What a step does to the moles. -/
theorem Path.amounts {tol : V n} {one : Bool} (h : Path c (May c tol one) start x m l y m') :
    ∀ st ∈ l, (st.evals = 0 ∧ st.moles = 0 ∧ st.after = st.before) ∨
      (st.evals ≠ 0 ∧ ∀ j, st.moles j ≤ st.before j ∧ 0 ≤ st.after j ∧
        |st.after j - (st.before j - st.moles j)| ≤ 1 / 10 ^ 30) := by
  induction h with
  | nil => intro st hst; cases hst
  | zero _ _ _ ih =>
    intro st hst
    rcases List.mem_append.1 hst with h | h
    · exact ih st h
    · rw [List.mem_singleton.1 h]; exact .inl ⟨rfl, rfl, rfl⟩
  | step _ _ hb hz _ ih =>
    intro st hst
    rcases List.mem_append.1 hst with h | h
    · exact ih st h
    · rw [List.mem_singleton.1 h]
      exact .inr ⟨hb, fun j => ⟨may_le hb hz j, rest_nonneg _ _ _, rest_close (may_le hb hz j)⟩⟩

/-- A quantity that the chemistry keeps, with the share of each reactant. -/
structure Kept (c : Chem n κ σ π ρ) (q : Cell σ π ρ → ℚ) (qc : κ → ℚ) (f : V n) : Prop where
  run : ∀ B v x p r, c.run B v = .ok x p r → qc x = q B + ∑ j, f j * v j
  save : ∀ x, q (c.save x) = qc x

theorem Path.kept {q : Cell σ π ρ → ℚ} {qc : κ → ℚ} {f : V n} {tol : V n} {one : Bool} (hk : Kept c q qc f)
    (h : Path c (May c tol one) start x m l y m') :
    |(qc y + ∑ j, f j * m' j) - (qc x + ∑ j, f j * m j)| ≤ l.length * ((∑ j, |f j|) * (1 / 10 ^ 30)) := by
  induction h with
  | nil => simp
  | zero _ _ _ ih =>
    refine le_trans ih ?_
    rw [List.length_append, List.length_singleton]
    push_cast
    have : 0 ≤ (∑ j, |f j|) * (1 / 10 ^ 30 : ℚ) :=
      mul_nonneg (Finset.sum_nonneg fun j _ => abs_nonneg _) (by norm_num)
    nlinarith
  | @step l y m' h b v z p r _ hp hb hz hr ih =>
    rw [List.length_append, List.length_singleton]
    push_cast
    have e1 : qc z = qc y + ∑ j, f j * v j := by rw [hk.run _ _ _ _ _ hr, hk.save]
    have e2 : (qc z + ∑ j, f j * rest m' v j) - (qc x + ∑ j, f j * m j) =
        ((qc y + ∑ j, f j * m' j) - (qc x + ∑ j, f j * m j)) + ∑ j, f j * (rest m' v j - (m' j - v j)) := by
      rw [e1]
      have : ∑ j, f j * (rest m' v j - (m' j - v j)) =
          ∑ j, f j * rest m' v j - ∑ j, f j * m' j + ∑ j, f j * v j := by
        rw [← Finset.sum_sub_distrib, ← Finset.sum_add_distrib]
        exact Finset.sum_congr rfl fun j _ => by ring
      rw [this]; ring
    have e3 : |∑ j, f j * (rest m' v j - (m' j - v j))| ≤ (∑ j, |f j|) * (1 / 10 ^ 30 : ℚ) := by
      refine le_trans (Finset.abs_sum_le_sum_abs _ _) ?_
      rw [Finset.sum_mul]
      refine Finset.sum_le_sum fun j _ => ?_
      rw [abs_mul]
      exact mul_le_mul_of_nonneg_left (rest_close (may_le hb hz j)) (abs_nonneg _)
    rw [e2]
    refine le_trans (abs_add_le _ _) ?_
    linarith

/-- The rates do not change. -/
theorem eval_const {r : V n} (hr : ∀ x m t h, c.rates x m t h = some (fun j => r j * h)) {B : Cell σ π ρ}
    {w k : V n} {t h : ℚ} (he : Eval c B m w t h k) : k = fun j => r j * h := by
  obtain ⟨x, p, q, -, hk⟩ := he
  rw [hr] at hk
  exact (Option.some.inj hk).symm

theorem may_const {r : V n} (hr : ∀ x m t h, c.rates x m t h = some (fun j => r j * h)) {tol : V n} {one : Bool}
    {t h : ℚ} {b : Nat} {v : V n} (hb : b ≠ 0) (hp : 0 < h) (hm : May c tol one x m t h b v) :
    v = atMost m (fun j => r j * h) := by
  rcases hm with ⟨e, -⟩ | ⟨-, hm⟩ | ⟨-, hm⟩ | ⟨-, hm⟩ | ⟨-, hm⟩
  · exact absurd e hb
  · obtain ⟨k, _, _, _, _, hk, rfl, -⟩ := hm
    rw [hr] at hk
    rw [Option.some.inj hk]
  · obtain ⟨k1, k2, hk, he, -, rfl⟩ := hm
    rw [hr] at hk
    rw [← Option.some.inj hk, eval_const hr he]
    congr 1; funext j; ring
  · obtain ⟨k1, k2, k3, hk, h2, h3, -, -, rfl⟩ := hm
    rw [hr] at hk
    rw [← Option.some.inj hk, eval_const hr h2, eval_const hr h3]
    congr 1; funext j; ring
  · obtain ⟨h', r', k1, k2, k3, k4, k5, k6, B, hh, hk, hk1, -, -, h2, h3, h4, h5, h6, -, rfl⟩ := hm
    rw [hr] at hk
    have : k1 = fun j => r j * h := by
      rw [hk1, ← Option.some.inj hk]
      funext j
      have : h' ≠ 0 := by intro e; rw [e] at hh; linarith
      field_simp
    rw [this, eval_const hr h3, eval_const hr h4, eval_const hr h6]
    congr 1; funext j; ring

/-- A linear function that is not below a bound at both ends is not below it in between. -/
theorem between {a r T τ e : ℚ} (h0 : e ≤ a) (h1 : e ≤ a - r * T) (ht : 0 ≤ τ) (ht' : τ ≤ T) : e ≤ a - r * τ := by
  rcases le_total 0 r with h | h
  · nlinarith
  · nlinarith

theorem Path.const {r : V n} (hr : ∀ x m t h, c.rates x m t h = some (fun j => r j * h)) {tol : V n} {one : Bool}
    {T : ℚ} (h0 : ∀ j, 1 / 10 ^ 30 ≤ m j) (h1 : ∀ j, 1 / 10 ^ 30 ≤ m j - r j * T)
    (h : Path c (May c tol one) start x m l y m') (hT : span l ≤ T) (hz : ∀ st ∈ l, st.evals ≠ 0) :
    m' = fun j => m j - r j * span l := by
  induction h with
  | nil => funext j; simp [span]
  | zero _ _ _ _ =>
    exact absurd rfl (hz _ (List.mem_append.2 (.inr (List.mem_singleton.2 rfl))))
  | @step l y m' h b v z p q hpa hp hb hv hrun ih =>
    rw [span_append] at hT ⊢
    have hl := span_nonneg (Path.pos hpa)
    have e := ih (by linarith [show ({evals := b, h := h, moles := v, before := m', after := rest m' v} : Step n).h = h from rfl])
      fun st hst => hz st (List.mem_append.2 (.inl hst))
    have hbt : ∀ j, 1 / 10 ^ 30 ≤ m' j - r j * h := fun j => by
      rw [e]
      have := between (h0 j) (h1 j) (τ := span l + h) (by linarith) hT
      linarith [show r j * (span l + h) = r j * span l + r j * h by ring]
    have hv' : v = fun j => r j * h := by
      rw [may_const hr hb hp hv]
      funext j
      have : (0 : ℚ) < 1 / 10 ^ 30 := by norm_num
      exact min_eq_right (by linarith [hbt j])
    funext j
    simp only [rest, hv']
    rw [if_neg (not_lt.2 (hbt j)), e]
    ring

/-- A polynomial of degree four in the time, and its integral. -/
def poly (a : Fin 5 → V n) (t : ℚ) : V n := fun j =>
  a 0 j + a 1 j * t + a 2 j * t ^ 2 + a 3 j * t ^ 3 + a 4 j * t ^ 4

/-- The integral of `poly`. -/
def prim (a : Fin 5 → V n) (t : ℚ) : V n := fun j =>
  a 0 j * t + a 1 j * t ^ 2 / 2 + a 2 j * t ^ 3 / 3 + a 3 j * t ^ 4 / 4 + a 4 j * t ^ 5 / 5

theorem eval_poly {a : Fin 5 → V n} (hr : ∀ x m t h, c.rates x m t h = some (fun j => poly a t j * h))
    {B : Cell σ π ρ} {w k : V n} {t h : ℚ} (he : Eval c B m w t h k) : k = fun j => poly a t j * h := by
  obtain ⟨x, p, q, -, hk⟩ := he
  rw [hr] at hk
  exact (Option.some.inj hk).symm

theorem six_poly {a : Fin 5 → V n} (hr : ∀ x m t h, c.rates x m t h = some (fun j => poly a t j * h)) {tol : V n}
    {one : Bool} {t h : ℚ} {v : V n} (hp : 0 < h) (hm : Six c tol one x m t h v) :
    v = atMost m (fun j => prim a (t + h) j - prim a t j) := by
  obtain ⟨h', r', k1, k2, k3, k4, k5, k6, B, hh, hk, hk1, -, -, h2, h3, h4, h5, h6, -, rfl⟩ := hm
  rw [hr] at hk
  have : k1 = fun j => poly a t j * h := by
    rw [hk1, ← Option.some.inj hk]
    funext j
    have : h' ≠ 0 := by intro e; rw [e] at hh; linarith
    field_simp
  rw [this, eval_poly hr h3, eval_poly hr h4, eval_poly hr h6]
  congr 1; funext j
  simp only [poly, prim]
  ring

theorem Path.poly {a : Fin 5 → V n} (hr : ∀ x m t h, c.rates x m t h = some (fun j => poly a t j * h)) {tol : V n}
    {one : Bool} {T : ℚ}
    (h1 : ∀ j τ, 0 ≤ τ → τ ≤ T → 1 / 10 ^ 30 ≤ m j - (prim a (start + τ) j - prim a start j))
    (h : Path c (May c tol one) start x m l y m') (hT : span l ≤ T) (hz : ∀ st ∈ l, st.evals = 6) :
    m' = fun j => m j - (prim a (start + span l) j - prim a start j) := by
  induction h with
  | nil => funext j; simp [span]
  | zero _ _ _ _ =>
    have := hz _ (List.mem_append.2 (.inr (List.mem_singleton.2 rfl)))
    simp at this
  | @step l y m' h b v z p q hpa hp hb hv hrun ih =>
    rw [span_append] at hT ⊢
    have hl := span_nonneg (Path.pos hpa)
    have e := ih (by linarith [show ({evals := b, h := h, moles := v, before := m', after := rest m' v} : Step n).h = h from rfl])
      fun st hst => hz st (List.mem_append.2 (.inl hst))
    have hb6 : b = 6 := hz _ (List.mem_append.2 (.inr (List.mem_singleton.2 rfl)))
    have hs : Six c tol one y m' (start + span l) h v := by
      rcases hv with ⟨e, -⟩ | ⟨e, -⟩ | ⟨e, -⟩ | ⟨e, -⟩ | ⟨-, hv⟩
      · omega
      · omega
      · omega
      · omega
      · exact hv
    have hbt : ∀ j, 1 / 10 ^ 30 ≤ m' j - (prim a (start + span l + h) j - prim a (start + span l) j) := fun j => by
      rw [e]
      have := h1 j (span l + h) (by linarith) hT
      rw [← add_assoc] at this
      linarith
    have hv' : v = fun j => prim a (start + span l + h) j - prim a (start + span l) j := by
      rw [six_poly hr hp hs]
      funext j
      have : (0 : ℚ) < 1 / 10 ^ 30 := by norm_num
      exact min_eq_right (by linarith [hbt j])
    funext j
    simp only [rest, hv']
    rw [if_neg (not_lt.2 (hbt j)), e, ← add_assoc]
    ring

end Verif.Kinetics
