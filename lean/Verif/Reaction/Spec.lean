import Verif.Reaction.Model

/-!
# Specification of reactions

A reaction is a list of coefficients and a constant. Whatever is conserved or additive (an element, the
charge, the logarithm of the activity) gives a weight to every species and every solid; the reaction
*obeys* the weights if the weighted sum of the coefficients and a multiple of the constant is zero. With
multiple zero this is balance, with multiple one the law of mass action of an association reaction, with
minus one that of a dissociation reaction.
-/

namespace Verif.Reaction

/-- Weights: of a species (`true`) or of a solid or gas (`false`). -/
abbrev Weight := Bool → Name → ℚ

/-- The weighted sum of the coefficients. -/
def tot (w : Weight) (l : List Tok) : ℚ := (l.map fun u => u.coef * w u.sp u.name).sum

/-- The reaction obeys the weights. -/
def Obeys (w : Weight) (κ : ℚ) (r : Rxn) : Prop := tot w r.toks + κ * r.logk = 0

/-- The largest coefficient that may be lost. -/
def tol : ℚ := 1 / 10 ^ 5

/-- With at most `m` lost terms put back, all of them with coefficients of at most `tol`, the reaction obeys
all weights with property `P`; the terms are the same for all weights. -/
def NearlyObeys (P : Weight → ℚ → Prop) (m : Nat) (r : Rxn) : Prop := ∃ D : List Tok,
  D.length ≤ m ∧ (∀ d ∈ D, |d.coef| ≤ tol) ∧ ∀ w κ, P w κ → Obeys w κ ⟨r.toks ++ D, r.logk⟩

/-- `sort` sorts by name. -/
def Sorts (sort : List Tok → List Tok) : Prop :=
  ∀ l, (sort l).Perm l ∧ (sort l).Pairwise fun u v => Verif.Equation.strLe u.name v.name = true

/-- A set of numbers that is closed under sums and the change of sign. -/
structure Closed (Q : ℚ → Prop) : Prop where
  add : ∀ a b, Q a → Q b → Q (a + b)
  neg : ∀ a, Q a → Q (-a)

/-- A set of numbers that is closed under products. -/
def MulClosed (Q : ℚ → Prop) : Prop := ∀ a b, Q a → Q b → Q (a * b)

/-- A set of numbers in which only zero is small: the whole numbers, or the multiples of one hundredth. -/
def Discrete (Q : ℚ → Prop) : Prop := ∀ x, Q x → |x| ≤ tol → x = 0

/-- The multiples of a number. -/
def Multiple (δ x : ℚ) : Prop := ∃ z : ℤ, x = z * δ

/-- The weights that the equations of all species obey. -/
def Law (db : Db) (w : Weight) (κ : ℚ) : Prop := ∀ n, Obeys w κ (db.rxn n)

/-- The weights that the equations of all phases obey; a name of a solid or gas weighs as much as the first
entry of the equation that is found for it. -/
def PhaseLaw (db : Db) (w : Weight) (κ : ℚ) : Prop :=
  ∀ n r, db.phase n = some r → Obeys w κ r ∧ ∀ h, r.toks.head? = some h → w h.sp h.name = w false n

end Verif.Reaction
