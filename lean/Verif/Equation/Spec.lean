import Verif.Formula.Spec

/-!
# Specification of chemical equations

What is written in an equation, how it is written, and when it balances. Nothing here uses the reader.
-/

namespace Verif.Equation

open Verif.Formula

/-- Charges as written: none, a row of equal signs (`++`), a sign and a whole number possibly followed
by a point and zeros (`+2`, `+2.0`). -/
inductive Chg where
  | none
  | row (neg : Bool) (n : Nat)
  | num (neg : Bool) (n : Nat) (zeros : Option Nat)
  deriving DecidableEq, Repr

/-- The sign. -/
def signChar (neg : Bool) : Char := if neg then '-' else '+'

/-- The charge as written. -/
def Chg.text : Chg → List Char
  | .none => []
  | .row neg n => List.replicate n (signChar neg)
  | .num neg n z => signChar neg :: Nat.toDigits 10 n ++ match z with
      | .none => []
      | some k => '.' :: List.replicate k '0'

/-- The charge that is meant. -/
def Chg.value : Chg → Int
  | .none => 0
  | .row neg n => if neg then -(n : Int) else n
  | .num neg n _ => if neg then -(n : Int) else n

/-- A row of signs is not empty; the numbers fit into an `int`. -/
def Chg.Good : Chg → Prop
  | .none => True
  | .row _ n => 0 < n ∧ n < 2 ^ 31
  | .num _ n _ => n < 2 ^ 31

/-- The one text of a charge in the name of a species: nothing, a sign, or a sign and a number greater
than one. -/
def chgName (z : Int) : List Char :=
  if z = 0 then [] else
    signChar (decide (z < 0)) :: if z.natAbs = 1 then [] else Nat.toDigits 10 z.natAbs

/-- Species without their charge: the electron, and those with a formula. -/
inductive Sp where
  | electron
  | formula (m : Compound)
  deriving DecidableEq, Repr

/-- The name as written. -/
def Sp.text : Sp → List Char
  | .electron => ['e']
  | .formula m => m.text

/-- The amount of an element. -/
def Sp.amount (x : Name) : Sp → ℚ
  | .electron => 0
  | .formula m => m.amount x

/-- Characters that equations may contain. -/
def legal (c : Char) : Prop :=
  c.isAlpha = true ∨ c.isDigit = true ∨ c ∈ ['+', '-', '=', '(', ')', '.', ':', '_', '[', ']']

/-- Signs and `=` occur in a name only between brackets, and brackets are closed. The argument says
that a bracket is open. -/
def closed : Bool → List Char → Prop
  | b, [] => b = false
  | true, c :: r => closed (c != ']') r
  | false, c :: r => c ≠ '+' ∧ c ≠ '-' ∧ c ≠ '=' ∧ closed (c == '[') r

/-- What a species may be called in an equation: a letter or an opening parenthesis or bracket first,
then any of the characters of equations, no sign or `=` outside brackets. -/
def NameOk (s : List Char) : Prop :=
  (∃ c r, s = c :: r ∧ (c.isAlpha = true ∨ c = '(' ∨ c = '[')) ∧ closed false s ∧ ∀ c ∈ s, legal c

/-- A term of an equation: sign, coefficient, name and charge. -/
structure Term where
  neg  : Bool
  coef : Option Num
  name : List Char
  chg  : Chg
  deriving DecidableEq, Repr

/-- A coefficient holds a digit (a point alone is no number). -/
def CoefOk : Option Num → Prop
  | none => True
  | some n => n.Good ∧ (n.ip ≠ [] ∨ n.frac ≠ [])

/-- The term is well formed. -/
def Term.Good (t : Term) : Prop := CoefOk t.coef ∧ NameOk t.name ∧ t.chg.Good

/-- The coefficient that is meant. -/
def Term.value (t : Term) : ℚ := if t.neg then -coefValue t.coef else coefValue t.coef

/-- The species that is meant: its name with the charge in its one form. -/
def Term.species (t : Term) : List Char := t.name ++ chgName t.chg.value

/-- The sign of a term as written; a plus before the first term may be left out (`bare`). -/
def Term.sign (t : Term) (bare : Bool) : List Char :=
  if t.neg then ['-'] else if bare then [] else ['+']

/-- Sign and coefficient as written. -/
def Term.lead (t : Term) (bare : Bool) : List Char := t.sign bare ++ coefText t.coef

/-- A term as written. -/
def Term.text (t : Term) (bare : Bool) : List Char := t.lead bare ++ (t.name ++ t.chg.text)

/-- The terms of a side after the first one. -/
def tailText : List Term → List Char
  | [] => []
  | t :: l => t.text false ++ tailText l

/-- A side as written; `bare` says that the plus sign before its first term is left out. -/
def sideText (bare : Bool) : List Term → List Char
  | [] => []
  | t :: l => t.text bare ++ tailText l

/-- The buffers of the reader hold 255 characters: coefficient with sign, and charge together with the
sign and the coefficient that follow. -/
def Fits (bare : Bool) : List Term → Prop
  | [] => True
  | [t] => (t.lead bare).length < 256 ∧ t.chg.text.length < 256
  | t :: u :: l => (t.lead bare).length < 256 ∧ (t.chg.text ++ u.lead false).length < 256 ∧
      Fits false (u :: l)

/-- White space is put anywhere. -/
inductive Spaced : List Char → List Char → Prop
  | nil : Spaced [] []
  | space (c : Char) (h : c ∈ [' ', '\t', '\n', '\r']) {s t} : Spaced s t → Spaced s (c :: t)
  | char (c : Char) {s t} : Spaced s t → Spaced (c :: s) (c :: t)

/-- What a term stands for: name, coefficient and charge of the species. The factor is −1 on the side
of the species that the equation defines. -/
def Term.entry (f : ℚ) (t : Term) : List Char × ℚ × ℚ := (t.species, f * t.value, t.chg.value)

/-- A term whose name is a formula or the electron. -/
structure Item where
  neg  : Bool
  coef : Option Num
  sp   : Sp
  chg  : Chg
  deriving DecidableEq, Repr

/-- The term. -/
def Item.term (i : Item) : Term := ⟨i.neg, i.coef, i.sp.text, i.chg⟩

/-- Net amount of an element on a side. -/
def sideAmount (x : Name) (l : List Item) : ℚ := (l.map fun i => i.term.value * i.sp.amount x).sum

/-- Net charge on a side. -/
def sideCharge (l : List Item) : ℚ := (l.map fun i => i.term.value * (i.chg.value : ℚ)).sum

end Verif.Equation
