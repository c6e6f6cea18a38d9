import Verif.Formula.Model

/-!
# Specification of chemical formulas

Formulas as trees, the way they are written, and the amounts of the elements in them. Nothing here
uses the reader.
-/

namespace Verif.Formula

/-- An unsigned decimal number as written: the digits before the point, and the digits behind it if
there is a point. -/
structure Num where
  ip : List Char
  fp : Option (List Char)
  deriving DecidableEq, Repr

/-- The digits behind the point. -/
def Num.frac (n : Num) : List Char := n.fp.getD []

/-- The number as written. -/
def Num.text (n : Num) : List Char :=
  n.ip ++ match n.fp with
    | none => []
    | some f => '.' :: f

/-- Only digits; something is written; fewer than 256 characters. -/
def Num.Good (n : Num) : Prop :=
  (∀ c ∈ n.ip, c.isDigit = true) ∧ (∀ c ∈ n.frac, c.isDigit = true) ∧
  (n.ip ≠ [] ∨ n.fp ≠ none) ∧ n.text.length < 256

/-- Place value of digits. -/
def placeValue : List Char → Nat
  | [] => 0
  | c :: r => (c.toNat - 48) * 10 ^ r.length + placeValue r

/-- The number meant: the whole part plus the decimals. -/
def Num.value (n : Num) : ℚ :=
  placeValue n.ip + placeValue n.frac / (10 : ℚ) ^ n.frac.length

/-- A coefficient that is left out is 1. -/
def coefValue : Option Num → ℚ
  | none => 1
  | some n => n.value

/-- A coefficient as written. -/
def coefText : Option Num → List Char
  | none => []
  | some n => n.text

/-- A coefficient is left out or a number. -/
def CoefGood : Option Num → Prop
  | none => True
  | some n => n.Good

/-- Element names: a capital letter with lower-case letters or underscores, or something in brackets
with such letters. -/
def NameGood (e : Name) : Prop :=
  (∃ c t, e = c :: t ∧ c.isUpper = true ∧ ∀ x ∈ t, x.isLower = true ∨ x = '_') ∨
  (∃ b t, e = '[' :: b ++ ']' :: t ∧ b ≠ [] ∧ ']' ∉ b ∧ ∀ x ∈ t, x.isLower = true ∨ x = '_')

/-- Formulas: elements and parenthesised groups with their subscripts, one after another. -/
inductive Fml where
  | nil
  | elt (e : Name) (n : Option Num) (rest : Fml)
  | group (inner : Fml) (n : Option Num) (rest : Fml)
  deriving DecidableEq, Repr

/-- Names and subscripts are well formed. -/
def Fml.Good : Fml → Prop
  | .nil => True
  | .elt e n r => NameGood e ∧ CoefGood n ∧ r.Good
  | .group i n r => i.Good ∧ CoefGood n ∧ r.Good

/-- The formula as written. -/
def Fml.text : Fml → List Char
  | .nil => []
  | .elt e n r => e ++ coefText n ++ r.text
  | .group i n r => '(' :: i.text ++ ')' :: coefText n ++ r.text

/-- The amount of element `x` in one unit of the formula. -/
def Fml.amount (x : Name) : Fml → ℚ
  | .nil => 0
  | .elt e n r => (if x = e then coefValue n else 0) + r.amount x
  | .group i n r => coefValue n * i.amount x + r.amount x

/-- A formula with parts behind colons, as `CaSO4:2H2O`. -/
structure Compound where
  first : Fml
  more  : List (Option Num × Fml)
  deriving DecidableEq, Repr

/-- The parts behind colons as written. -/
def moreText : List (Option Num × Fml) → List Char
  | [] => []
  | q :: l => ':' :: coefText q.1 ++ q.2.text ++ moreText l

/-- The compound as written. -/
def Compound.text (k : Compound) : List Char := k.first.text ++ moreText k.more

/-- All parts are well formed. -/
def Compound.Good (k : Compound) : Prop :=
  k.first.Good ∧ ∀ q ∈ k.more, CoefGood q.1 ∧ q.2.Good

/-- The amount of an element in a compound: that of the first part, and of every other part its own
coefficient times the amount in it. -/
def Compound.amount (k : Compound) (x : Name) : ℚ :=
  k.first.amount x + (k.more.map (fun q => coefValue q.1 * q.2.amount x)).sum

/-- What may follow a formula: the end, or a charge. -/
def Charge (s : List Char) : Prop := s = [] ∨ ∃ r, s = '+' :: r ∨ s = '-' :: r

/-- The sum of the coefficients of an element in a list of entries. -/
def total (l : List (Name × ℚ)) (x : Name) : ℚ :=
  (l.map (fun p => if x = p.1 then p.2 else 0)).sum

/-- No colon inside parentheses (brackets and what follows a charge do not count). The first argument
says that the text starts inside a bracket, the second how many parentheses are open. -/
def shallow : Bool → Nat → List Char → Bool
  | _, _, [] => true
  | true, d, c :: r => shallow (c != ']') d r
  | false, d, c :: r =>
    if c = '[' then shallow true d r
    else if c = '(' then shallow false (d + 1) r
    else if c = ')' then shallow false (d - 1) r
    else if c = ':' then d == 0 && shallow false d r
    else if c = '+' ∨ c = '-' then true
    else shallow false d r

end Verif.Formula
