import Verif.Formula.Model
import Mathlib.Data.List.Sort

/-!
# Chemical equations

Model of the reader of the equations of species and phases and of the test that they balance:
`parse_eq`, `check_eqn`, `get_charge`, `get_coef`, `get_species` of
`/repo/src/IPhreeqcPhast/IPhreeqc/phreeqcpp/parse.cpp`, `get_token`, `equal`, `islegit`, `replace`,
`squeeze_white` of `utilities.cpp` and `elt_list_combine`, `trxn_sort` of `structures.cpp` in the same
directory. The formulas inside are those of `Verif.Formula`.

Simplifications. A character string is the list of its characters before the terminating NUL.
Characters are taken as ASCII. Coefficients and charges are rationals instead of doubles. Messages are
left out. The order in which `qsort` leaves entries of equal names is that of an insertion sort. Names
are compared as a whole (`elt_list_compare` and the test for `e` in `check_eqn` compare 256
characters). `check_eqn` is applied to the list that `parse_eq` leaves; in the program it is applied to
a copy in which the charge of a name is looked up in the species of that name (structures.cpp:1643-1700,
tidy.cpp:2282-2285, see `name_keeps_charge`).
-/

namespace Verif.Equation

open Verif.Formula

/-- White space, `isspace` as used at utilities.cpp:824. -/
def isSpace (c : Char) : Bool :=
  c == ' ' || c == '\t' || c == '\n' || c == '\r' || c.toNat == 11 || c.toNat == 12

/-- `squeeze_white`, utilities.cpp:806-828. -/
def squeeze (s : List Char) : List Char := s.filter (fun c => !isSpace c)

/-- `islegit`, utilities.cpp:615-635. -/
def isLegit (c : Char) : Bool :=
  c.isAlpha || c.isDigit || "+-=().:_[]".toList.contains c

/-- A sign. -/
def isSign (c : Char) : Bool := c == '+' || c == '-'

/-- Characters that start a name, parse.cpp:417-418, 428-429 and 439-440. -/
def isOpen (c : Char) : Bool := c.isAlpha || c == '(' || c == ')' || c == '[' || c == ']'

/-- Characters of a coefficient, parse.cpp:450 and 452. -/
def isCoef (c : Char) : Bool := c.isDigit || c == '+' || c == '-' || c == '.'

/-- A sign and what follows it, as `strtod` and `strtol` see it. -/
def unsign : List Char → Bool × List Char
  | '+' :: r => (false, r)
  | '-' :: r => (true, r)
  | r => (false, r)

/-- The number with its sign. -/
def withSign (neg : Bool) (q : ℚ) : ℚ := if neg then -q else q

/-- `strtod` of a token that has to be a number as a whole, parse.cpp:466-474: a sign, digits and at
most one point, among them a digit. (The range error cannot occur for fewer than 256 characters
without an exponent.) -/
def readCoef (tok : List Char) : Option ℚ :=
  let u := unsign tok
  let t := numChars false u.2
  if t.2 = [] ∧ t.1.any Char.isDigit = true then some (withSign u.1 (strtod t.1)) else none

/-- `get_coef`, parse.cpp:384-484. -/
def getCoef : List Char → Res (ℚ × List Char)
  | [] => .err
  | c :: r =>
    if isOpen c then .ok (1, c :: r)
    else if c = '+' ∧ (r.head?.map isOpen) = some true then .ok (1, r)
    else if c = '-' ∧ (r.head?.map isOpen) = some true then .ok (-1, r)
    else if isCoef c then
      let tok := (c :: r).takeWhile isCoef
      if maxLength ≤ tok.length then .err
      else match readCoef tok with
        | some q => .ok (q, (c :: r).dropWhile isCoef)
        | none => .err
    else .err

/-- The name of a species, utilities.cpp:485-514: everything up to a sign, `=` or the end that is not
in brackets. The first argument says that a bracket is open. -/
def nameChars : Bool → List Char → Res (List Char × List Char)
  | false, [] => .ok ([], [])
  | true, [] => .err
  | true, c :: r =>
    (nameChars (c != ']') r).bind fun t => .ok (c :: t.1, t.2)
  | false, c :: r =>
    if c = '+' ∨ c = '-' ∨ c = '=' then .ok ([], c :: r)
    else (nameChars (c == '[') r).bind fun t => .ok (c :: t.1, t.2)

/-- Characters that may belong to a charge, utilities.cpp:541-544. -/
def inCharge (c : Char) : Bool :=
  !(c.isAlpha || c == '(' || c == ')' || c == ']' || c == '[' || c == '=')

/-- Back to the last sign, utilities.cpp:560-567: what is before it, and the rest from it on. Without
a sign the loop would leave the text. -/
def cutLast : List Char → Option (List Char × List Char)
  | [] => none
  | c :: r =>
    match cutLast r with
    | some t => some (c :: t.1, t.2)
    | none => if isSign c then some ([], c :: r) else none

/-- Value of a string of octal digits. -/
def octal (l : List Char) : Nat := l.foldl (fun a c => 8 * a + (c.toNat - '0'.toNat)) 0

/-- An octal digit. -/
def isOct (c : Char) : Bool := c.isDigit && c != '8' && c != '9'

/-- `strtol` with base 0, parse.cpp:321: without a digit nothing is read, a leading zero makes the
number octal. (`0x` cannot occur: the text holds no letters, utilities.cpp:541.) The result is the
number and the rest. -/
def strtol (s : List Char) : Option (Int × List Char) :=
  let u := unsign s
  match u.2 with
  | [] => none
  | c :: r =>
    if c = '0' then
      some (if u.1 then -(octal (r.takeWhile isOct) : Int) else octal (r.takeWhile isOct),
        r.dropWhile isOct)
    else if c.isDigit then
      some (if u.1 then -(digits ((c :: r).takeWhile Char.isDigit) : Int)
          else digits ((c :: r).takeWhile Char.isDigit),
        (c :: r).dropWhile Char.isDigit)
    else none

/-- `strtol` stays within `long` (64 bits), and the result is stored in an `int` (32 bits),
parse.cpp:321. -/
def toInt (v : Int) : Int := Int.bmod (max (-2 ^ 63) (min (2 ^ 63 - 1) v)) (2 ^ 32)

/-- The text of an integer charge and its value, parse.cpp:351-381. `abs` of the least `int` is
undefined. -/
def chargeText (c : Char) (i : Int) : Res (List Char × ℚ) :=
  if i = -2 ^ 31 then .ub
  else if i = 0 then .ok ([], 0)
  else if i.natAbs = 1 then .ok ([c], i)
  else .ok ((if i < 0 then '-' else '+') :: Nat.toDigits 10 i.natAbs, i)

/-- `get_charge`, parse.cpp:261-382: the text that goes into the name, and the value. -/
def getCharge : List Char → Res (List Char × ℚ)
  | [] => .ok ([], 0)
  | c :: r =>
    if isSign c = false then .err
    else if r.all (· == c) then
      chargeText c (if c = '-' then -((r.length + 1 : Nat) : Int) else ((r.length + 1 : Nat) : Int))
    else match strtol (c :: r) with
      | none => .err
      | some (v, []) => chargeText c (toInt v)
      | some (v, d :: q) =>
        if d = '.' then
          if q.all (· == '0') then chargeText c (toInt v)
          else .ok (c :: r, withSign (unsign (c :: r)).1
            (strtod (numChars false (unsign (c :: r)).2).1))
        else .err

/-- `get_token`, utilities.cpp:454-585: the name with the charge, the charge, and the rest. -/
def getToken (s : List Char) : Res ((List Char × ℚ) × List Char) :=
  (nameChars false s).bind fun t =>
  if t.1 = [] then .err
  else match t.2 with
    | [] => .ok ((t.1, 0), [])
    | c :: r =>
      if c = '=' then .ok ((t.1, 0), c :: r)
      else
        let ch := (c :: r).takeWhile inCharge
        let k := (c :: r).dropWhile inCharge
        if maxLength ≤ ch.length then .err
        else if k = [] ∨ k.head? = some '=' then
          (getCharge ch).bind fun g => .ok ((t.1 ++ g.1, g.2), k)
        else match cutLast ch with
          | none => .ub
          | some (a, b) => (getCharge a).bind fun g => .ok ((t.1 ++ g.1, g.2), b ++ k)

/-- An entry of `trxn.token`, `global_structures.h:1110-1127`: name, coefficient and charge. -/
structure Tok where
  name : List Char
  coef : ℚ
  z    : ℚ
  deriving DecidableEq, Repr

/-- `get_species`, parse.cpp:1008-1044. -/
def getSpecies (s : List Char) : Res (Tok × List Char) :=
  (getCoef s).bind fun q =>
  (getToken q.2).bind fun t =>
  .ok (⟨t.1.1, q.1, t.1.2⟩, t.2)

/-- Multiplication of the coefficient by −1, parse.cpp:81-84, 97 and 123-126. -/
def Tok.flip (f : Bool) (t : Tok) : Tok := ⟨t.name, if f then -t.coef else t.coef, t.z⟩

/-- The loop over the left-hand side, parse.cpp:64-86. The first argument is fuel (a species has at
least one character). -/
def readLeft : Nat → Bool → List Char → Res (List Tok × List Char)
  | 0, _, _ => .fuel
  | _ + 1, _, [] => .err
  | n + 1, f, c :: r =>
    if c = '=' then .ok ([], r)
    else
      (getSpecies (c :: r)).bind fun t =>
      (readLeft n f t.2).bind fun l => .ok (t.1.flip f :: l.1, l.2)

/-- The loop over the right-hand side, parse.cpp:113-128. -/
def readRight : Nat → Bool → List Char → Res (List Tok)
  | 0, _, _ => .fuel
  | _ + 1, _, [] => .ok []
  | n + 1, f, c :: r =>
    (getSpecies (c :: r)).bind fun t =>
    (readRight n f t.2).bind fun l => .ok (t.1.flip f :: l)

/-- The first species of the right-hand side takes the first place, parse.cpp:98-108. -/
def swapIn (l : List Tok) (t : Tok) : List Tok :=
  match l with
  | [] => [t]
  | a :: l => t :: (l ++ [a])

/-- The species in the order in which they are stored, parse.cpp:58-128. -/
def readTokens (assoc : Bool) (s : List Char) : Res (List Tok) :=
  (readLeft (s.length + 1) (!assoc) s).bind fun l =>
  if assoc then
    (getSpecies l.2).bind fun t =>
    (readRight (t.2.length + 1) true t.2).bind fun r =>
    .ok (swapIn l.1 (t.1.flip true) ++ r)
  else
    (readRight (l.2.length + 1) false l.2).bind fun r => .ok (l.1 ++ r)

/-- `strcmp(a, b) <= 0`. -/
def strLe : List Char → List Char → Bool
  | [], _ => true
  | _ :: _, [] => false
  | a :: l, b :: m => a.toNat < b.toNat || (a.toNat == b.toNat && strLe l m)

/-- `trxn_sort`, structures.cpp:2348-2364: all entries but the first. -/
def sortTail : List Tok → List Tok
  | [] => []
  | t :: l => t :: l.insertionSort (fun a b => strLe a.name b.name = true)

/-- The loop that merges entries of the same element, structures.cpp:493-510. The first argument is the
entry at position `j`. -/
def merge (p : Name × ℚ) : List (Name × ℚ) → List (Name × ℚ)
  | [] => [p]
  | q :: l => if q.1 = p.1 then merge (p.1, p.2 + q.2) l else p :: merge q l

/-- `elt_list_combine`, structures.cpp:470-512. -/
def combine (l : List (Name × ℚ)) : List (Name × ℚ) :=
  match l.insertionSort (fun a b => strLe a.1 b.1 = true) with
  | [] => []
  | p :: m => merge p m

/-- `replace` with an empty second text, utilities.cpp:680-722: the first place where `p` occurs is
taken out. -/
def removeFirst (p : List Char) : List Char → List Char
  | [] => []
  | c :: r => if p.isPrefixOf (c :: r) then (c :: r).drop p.length else c :: removeFirst p r

/-- The marks of solids and gases are taken out of the name, parse.cpp:138-141. -/
def strip (s : List Char) : List Char :=
  removeFirst "(G)".toList (removeFirst "(g)".toList
    (removeFirst "(S)".toList (removeFirst "(s)".toList s)))

/-- What `parse_eq` leaves: `trxn`, the elements of the first species, and whether `input_error` was
raised without an ERROR. -/
structure Eqn where
  toks : List Tok
  elts : List (Name × ℚ)
  bad  : Bool
  deriving DecidableEq, Repr

/-- The elements of the first species, parse.cpp:133-162. `strcpy_safe` ends the program when the name
does not fit (common/Utils.cxx:207-214). -/
def target (t : Tok) (l : List Tok) : Res Eqn :=
  if maxLength < t.name.length + 1 then .stop
  else
    (elements (strip t.name) t.coef).bind fun e =>
    .ok ⟨l, (combine e.elts).map (fun p => (p.1, -p.2)), e.bad⟩

/-- `parse_eq`, parse.cpp:13-169. `old` is what an earlier equation has left at the first place of
`trxn.token`, which is used if the equation holds no species at all. -/
def parseEq (assoc : Bool) (old : Option Tok) (eqn : List Char) : Res Eqn :=
  let s := squeeze eqn
  if s.all isLegit = false then .err
  else
    (readTokens assoc s).bind fun l =>
    match sortTail l, old with
    | t :: m, _ => target t (t :: m)
    | [], some t => target t []
    | [], none => .ub

/-- `TOL`, `global_structures.h:139`. -/
def tol : ℚ := 1 / 10 ^ 9

/-- `equal`, utilities.cpp:429-440. -/
def equal (a b eps : ℚ) : Bool := |a - b| ≤ eps

/-- The loop of `check_eqn` over the species, parse.cpp:212-221: the sum of the charges and the list of
elements. The first argument is `paren_count`. -/
def sumUp : Int → List Tok → Res (ℚ × List (Name × ℚ) × Bool)
  | _, [] => .ok (0, [], false)
  | p, t :: l =>
    (parse (t.name.length + 1) t.name t.coef p).bind fun e =>
    (sumUp e.paren l).bind fun r =>
    .ok (t.coef * t.z + r.1, e.elts ++ r.2.1, e.bad || r.2.2)

/-- `check_eqn`, parse.cpp:170-258: OK or ERROR, and whether `input_error` was raised with OK. Without a
species the first place is not part of the equation. -/
def checkEqn : List Tok → Res Bool
  | [] => .ub
  | t :: l =>
    if equal t.coef (-1) tol = false then .err
    else
      (sumUp 0 (t :: l)).bind fun r =>
      if equal r.1 0 tol = true ∧
          (combine r.2.1).all (fun p => equal p.2 0 tol || p.1 == ['e']) = true
        then .ok r.2.2 else .err

/-- An equation is read and tested, as for the species of `SOLUTION_SPECIES`, `EXCHANGE_SPECIES` and
`SURFACE_SPECIES` (read.cpp:740, 6011 and 6633, tidy.cpp:2282-2293). -/
def accept (assoc : Bool) (old : Option Tok) (eqn : List Char) : Res Bool :=
  (parseEq assoc old eqn).bind fun e =>
  (checkEqn e.toks).bind fun b => .ok (e.bad || b)

end Verif.Equation
