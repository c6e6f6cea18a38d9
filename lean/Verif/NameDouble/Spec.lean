import Verif.OMap.Basic
import Mathlib.Algebra.Order.Field.Rat

/-!
# Specification vocabulary for named values
-/

namespace Verif.NameDouble

open Verif.OMap

/-- Value of a name, a missing entry counting as zero. -/
def val (m : SMap (List Char) ℚ) (k : List Char) : ℚ :=
  match find m k with
  | some v => v
  | none   => 0

/-- `IsState n e`: the name `n` denotes element `e` or one of its valence states `e(..`. -/
def IsState (n e : List Char) : Prop := '(' ∉ e ∧ (n = e ∨ ∃ s, n = e ++ '(' :: s)

/-- `Total nd e t`: the entries of `nd` for element `e` or its valence states sum to `t`. -/
inductive Total : SMap (List Char) ℚ → List Char → ℚ → Prop
  | nil (e) : Total [] e 0
  | hit {n e v m t} : IsState n e → Total m e t → Total ((n, v) :: m) e (v + t)
  | miss {n e v m t} : ¬ IsState n e → Total m e t → Total ((n, v) :: m) e t

/-- Element names as PHREEQC writes them: every character of the element part sorts after the
opening parenthesis, and a valence state has at least four characters (`C(4)`). -/
def GoodName (n : List Char) : Prop :=
  ∃ e, (∀ c ∈ e, '(' < c) ∧ (n = e ∨ ∃ s, n = e ++ '(' :: s ∧ 4 ≤ n.length)

end Verif.NameDouble
