import Verif.Kinetics.Model

/-!
# Specification of the integration of kinetic rates

A step starts from a result `x` whose cell is `c.save x`, at the time `t`, with the moles `m` of the reactants. What
may be taken as a step is said here with the chemistry alone, without the variables of the loop.
-/

namespace Verif.Kinetics.Spec

open Verif.Kinetics

variable {n : Nat} {κ σ π ρ : Type}

/-- Not more than there is. -/
def atMost (m w : V n) : V n := fun j => min (m j) (w j)

/-- What is left; a rest below 10⁻³⁰ is nothing. -/
def rest (m v : V n) : V n := fun j => if m j - v j < 1 / 10 ^ 30 then 0 else m j - v j

/-- The rates are equal within the tolerance. -/
def Close (tol a b : V n) : Prop := ∀ j, |a j - b j| ≤ tol j

/-- `k` are the moles of a step of length `h` at the time `t`, when the moles `w` have reacted in the cell `B`. -/
def Eval (c : Chem n κ σ π ρ) (B : Cell σ π ρ) (m w : V n) (t h : ℚ) (k : V n) : Prop :=
  ∃ x p q, c.run B (atMost m w) = .ok x p q ∧ c.rates x (m - atMost m w) t h = some k

/-- No rate. -/
def Zero (c : Chem n κ σ π ρ) (x : κ) (m : V n) (t h : ℚ) (v : V n) : Prop :=
  ∃ k, c.rates x m t h = some k ∧ (∀ j, |k j| ≤ 1 / 10 ^ 25) ∧ v = 0

/-- A step with the rate at its start; the rate at its end is the same. -/
def One (c : Chem n κ σ π ρ) (tol : V n) (x : κ) (m : V n) (t h : ℚ) (v : V n) : Prop :=
  ∃ k k' y p q, c.rates x m t h = some k ∧ v = atMost m k ∧ c.run (c.save x) v = .ok y p q ∧
    c.rates y (rest m v) t h = some k' ∧ Close tol k k'

/-- A step from two evaluations that are the same. -/
def Two (c : Chem n κ σ π ρ) (tol : V n) (x : κ) (m : V n) (t h : ℚ) (v : V n) : Prop :=
  ∃ k1 k2, c.rates x m t h = some k1 ∧
    Eval c (c.save x) m (fun j => k1 j * (1 / 5)) (t + 1 / 5 * h) h k2 ∧ Close tol k1 k2 ∧
    v = atMost m (fun j => 3 / 10 * k1 j + 7 / 10 * k2 j)

/-- A step from three evaluations that are the same. -/
def Three (c : Chem n κ σ π ρ) (tol : V n) (x : κ) (m : V n) (t h : ℚ) (v : V n) : Prop :=
  ∃ k1 k2 k3, c.rates x m t h = some k1 ∧
    Eval c (c.save x) m (fun j => k1 j * (1 / 5)) (t + 1 / 5 * h) h k2 ∧
    Eval c (c.save x) m (fun j => 3 / 40 * k1 j + 9 / 40 * k2 j) (t + 3 / 10 * h) h k3 ∧
    Close tol k1 k2 ∧ Close tol k1 k3 ∧
    v = atMost m (fun j => 1 / 2 * k1 j - 3 / 2 * k2 j + 2 * k3 j)

/-- A step of the method of Cash and Karp with an error within the tolerance. The first evaluation may be from a longer
step. The second evaluation is from a cell `B` with the solution of the step. -/
def Six (c : Chem n κ σ π ρ) (tol : V n) (one : Bool) (x : κ) (m : V n) (t h : ℚ) (v : V n) : Prop :=
  ∃ h' r k1 k2 k3 k4 k5 k6 B, h ≤ h' ∧ c.rates x m t h' = some r ∧ (k1 = fun j => r j * (h / h')) ∧
    B.main = (c.save x).main ∧ (one = false → B = c.save x) ∧
    Eval c B m (fun j => k1 j * (1 / 5)) (t + 1 / 5 * h) h k2 ∧
    Eval c (c.save x) m (fun j => 3 / 40 * k1 j + 9 / 40 * k2 j) (t + 3 / 10 * h) h k3 ∧
    Eval c (c.save x) m (fun j => 3 / 10 * k1 j - 9 / 10 * k2 j + 6 / 5 * k3 j) (t + 3 / 5 * h) h k4 ∧
    Eval c (c.save x) m (fun j => -11 / 54 * k1 j + 5 / 2 * k2 j - 70 / 27 * k3 j + 35 / 27 * k4 j)
      (t + 1 * h) h k5 ∧
    Eval c (c.save x) m (fun j => 1631 / 55296 * k1 j + 175 / 512 * k2 j + 575 / 13824 * k3 j +
      44275 / 110592 * k4 j + 253 / 4096 * k5 j) (t + 7 / 8 * h) h k6 ∧
    (∀ j, |(37 / 378 * k1 j + 250 / 621 * k3 j + 125 / 594 * k4 j + 512 / 1771 * k6 j) -
      (2825 / 27648 * k1 j + 18575 / 48384 * k3 j + 13525 / 55296 * k4 j + 277 / 14336 * k5 j + 1 / 4 * k6 j)|
      ≤ tol j) ∧
    v = atMost m (fun j => 37 / 378 * k1 j + 250 / 621 * k3 j + 125 / 594 * k4 j + 512 / 1771 * k6 j)

/-- The moles `v` may be taken as a step, from this number of evaluations. -/
def May (c : Chem n κ σ π ρ) (tol : V n) (one : Bool) (x : κ) (m : V n) (t h : ℚ) (b : Nat) (v : V n) : Prop :=
  (b = 0 ∧ Zero c x m t h v) ∨ (b = 1 ∧ One c tol x m t h v) ∨ (b = 2 ∧ Two c tol x m t h v) ∨
    (b = 3 ∧ Three c tol x m t h v) ∨ (b = 6 ∧ Six c tol one x m t h v)

/-- The time that has passed. -/
def span (l : List (Step n)) : ℚ := (l.map Step.h).sum

/-- A sequence of steps from the result `x` and the moles `m`, where `M` says which moles may be taken. Each step starts
from the cell that was saved after the one before. -/
inductive Path (c : Chem n κ σ π ρ) (M : κ → V n → ℚ → ℚ → Nat → V n → Prop) (start : ℚ) (x : κ) (m : V n) :
    List (Step n) → κ → V n → Prop
  | nil : Path c M start x m [] x m
  | zero {l y m' h} : Path c M start x m l y m' → 0 < h → M y m' (start + span l) h 0 0 →
      Path c M start x m (l ++ [⟨0, h, 0, m', m'⟩]) y m'
  | step {l y m' h b v z p q} : Path c M start x m l y m' → 0 < h → b ≠ 0 →
      M y m' (start + span l) h b v → c.run (c.save y) v = .ok z p q →
      Path c M start x m (l ++ [⟨b, h, v, m', rest m' v⟩]) z (rest m' v)

/-- The moles of the rate programs are proportional to the length of the step. -/
def Linear (c : Chem n κ σ π ρ) : Prop :=
  ∀ x m t h a v, 0 < h → 0 < a → c.rates x m t h = some v → c.rates x m t (h * a) = some (fun j => v j * a)

/-- A step of the method of Cash and Karp from the cell that was saved. -/
def Karp (c : Chem n κ σ π ρ) (tol : V n) (x : κ) (m : V n) (t h : ℚ) (v : V n) : Prop :=
  ∃ k1 k2 k3 k4 k5 k6, c.rates x m t h = some k1 ∧
    Eval c (c.save x) m (fun j => k1 j * (1 / 5)) (t + 1 / 5 * h) h k2 ∧
    Eval c (c.save x) m (fun j => 3 / 40 * k1 j + 9 / 40 * k2 j) (t + 3 / 10 * h) h k3 ∧
    Eval c (c.save x) m (fun j => 3 / 10 * k1 j - 9 / 10 * k2 j + 6 / 5 * k3 j) (t + 3 / 5 * h) h k4 ∧
    Eval c (c.save x) m (fun j => -11 / 54 * k1 j + 5 / 2 * k2 j - 70 / 27 * k3 j + 35 / 27 * k4 j)
      (t + 1 * h) h k5 ∧
    Eval c (c.save x) m (fun j => 1631 / 55296 * k1 j + 175 / 512 * k2 j + 575 / 13824 * k3 j +
      44275 / 110592 * k4 j + 253 / 4096 * k5 j) (t + 7 / 8 * h) h k6 ∧
    (∀ j, |(37 / 378 * k1 j + 250 / 621 * k3 j + 125 / 594 * k4 j + 512 / 1771 * k6 j) -
      (2825 / 27648 * k1 j + 18575 / 48384 * k3 j + 13525 / 55296 * k4 j + 277 / 14336 * k5 j + 1 / 4 * k6 j)|
      ≤ tol j) ∧
    v = atMost m (fun j => 37 / 378 * k1 j + 250 / 621 * k3 j + 125 / 594 * k4 j + 512 / 1771 * k6 j)

/-- As `May`, with the exact method. -/
def MayKarp (c : Chem n κ σ π ρ) (tol : V n) (x : κ) (m : V n) (t h : ℚ) (b : Nat) (v : V n) : Prop :=
  (b = 0 ∧ Zero c x m t h v) ∨ (b = 1 ∧ One c tol x m t h v) ∨ (b = 2 ∧ Two c tol x m t h v) ∨
    (b = 3 ∧ Three c tol x m t h v) ∨ (b = 6 ∧ Karp c tol x m t h v)

end Verif.Kinetics.Spec
