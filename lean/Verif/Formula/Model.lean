import Mathlib.Algebra.Order.Field.Rat

/-!
# Chemical formulas and formula weights

Model of the reader of chemical formulas that stands behind `GetGfw`, the stoichiometry of species and
phases, and the composition of reactants: `get_elt`, `get_num`, `get_elts_in_species` of
`/repo/src/IPhreeqcPhast/IPhreeqc/phreeqcpp/parse.cpp` and `compute_gfw` of
`/repo/src/IPhreeqcPhast/IPhreeqc/phreeqcpp/utilities.cpp`.

Simplifications. A character string is the list of its characters before the terminating NUL.
Characters are taken as ASCII (`isupper` of another `char` is not defined in C). Coefficients are
rationals instead of doubles. Messages are left out, and of the counter `input_error` only the
increment that does not come with a return value ERROR is kept (`bad`).
-/

namespace Verif.Formula

/-- Element names are lists of characters. -/
abbrev Name := List Char

/-- Outcomes of the C functions: a value with return value OK, return value ERROR, undefined
behaviour, `std::terminate`, and (never reached, see `parse_total`) the end of the fuel of the
model. -/
inductive Res (α : Type) where
  | ok (a : α)
  | err
  | ub
  | stop
  | fuel
  deriving DecidableEq, Repr

/-- Sequencing: every outcome but OK ends the function
(`if (... == ERROR) return (ERROR);`, parse.cpp:602-605, 611-614, 639-646, 660-667). -/
def Res.bind {α β : Type} : Res α → (α → Res β) → Res β
  | .ok a, f => f a
  | .err, _ => .err
  | .ub, _ => .ub
  | .stop, _ => .stop
  | .fuel, _ => .fuel

/-- Characters that continue an element name, parse.cpp:539 and 548. -/
def isTail (c : Char) : Bool := c.isLower || c == '_'

/-- The loop over the characters between the brackets, parse.cpp:520-538, entered at a character other
than `]`. Returns the characters stored, the rest, and whether the closing bracket is missing. -/
def bracket (c : Char) : List Char → Name × List Char × Bool
  | [] => ([c], [], true)
  | d :: r => if d = ']' then ([c, ']'], r, false)
      else
        let t := bracket d r
        (c :: t.1, t.2)

/-- `get_elt`, parse.cpp:487-556. With nothing behind `[` the loop stores the terminating NUL and reads
behind it (parse.cpp:520-526). -/
def getElt : List Char → Res (Name × List Char × Bool)
  | [] => .err
  | c :: r =>
    if c = '[' then
      match r with
      | [] => .ub
      | d :: r' =>
        if d = ']' then
          .ok (c :: (d :: r').takeWhile isTail, (d :: r').dropWhile isTail, false)
        else
          let t := bracket d r'
          .ok (c :: t.1 ++ t.2.1.takeWhile isTail, t.2.1.dropWhile isTail, t.2.2)
    else .ok (c :: r.takeWhile isTail, r.dropWhile isTail, false)

/-- The characters of a number, parse.cpp:974-993: digits and at most one point. `dec` says that the
point has been read. -/
def numChars (dec : Bool) : List Char → List Char × List Char
  | [] => ([], [])
  | c :: r =>
    if c.isDigit then (c :: (numChars dec r).1, (numChars dec r).2)
    else if c = '.' ∧ dec = false then (c :: (numChars true r).1, (numChars true r).2)
    else ([], c :: r)

/-- Value of a string of digits, as read by `strtod`. -/
def digits (l : List Char) : Nat := l.foldl (fun a c => 10 * a + (c.toNat - '0'.toNat)) 0

/-- `strtod` of a token of digits and at most one point, parse.cpp:996; a lone point is no number and
gives 0. -/
def strtod (tok : List Char) : ℚ :=
  let ip := tok.takeWhile Char.isDigit
  let fp := (tok.dropWhile Char.isDigit).drop 1
  (digits (ip ++ fp) : ℚ) / (10 : ℚ) ^ fp.length

/-- `MAX_LENGTH`, `/repo/src/IPhreeqcPhast/IPhreeqc/phreeqcpp/global_structures.h:125`. -/
def maxLength : Nat := 256

/-- `get_num`, parse.cpp:946-1006: the number at the front, or 1. (The range error of `strtod` cannot
occur for tokens shorter than 256 characters.) -/
def getNum (s : List Char) : Res (ℚ × List Char) :=
  let t := numChars false s
  if t.1 = [] then .ok (1, s)
  else if maxLength ≤ t.1.length then .err
  else .ok (strtod t.1, t.2)

/-- What a call of `get_elts_in_species` leaves behind: the position, the entries added to `elt_list`,
`paren_count`, and whether `input_error` was raised without an ERROR. -/
structure St where
  rest  : List Char
  elts  : List (Name × ℚ)
  paren : Int
  bad   : Bool
  deriving DecidableEq, Repr

/-- Entries multiplied by a coefficient, parse.cpp:647-650 and 668-671. -/
def scale (d : ℚ) (l : List (Name × ℚ)) : List (Name × ℚ) := l.map (fun p => (p.1, p.2 * d))

/-- The end of the loop, parse.cpp:684-691. -/
def finish (s : List Char) (p : Int) : Res St :=
  if p ≠ 0 then .err else .ok ⟨s, [], p, false⟩

/-- Start of an element name, parse.cpp:597. -/
def starts (c : Char) (r : List Char) : Bool :=
  c.isUpper || (c == 'e' && r.head? == some '-') || c == '['

/-- `get_elts_in_species`, parse.cpp:559-692. The first argument is fuel for the recursion: one unit
for every turn of the loop and every call. A turn of the loop ends in `continue`, which is a call with
the same coefficient. -/
def parse : Nat → List Char → ℚ → Int → Res St
  | 0, _, _, _ => .fuel
  | _ + 1, [], _, p => finish [] p
  | n + 1, c :: r, coef, p =>
    if c = '+' ∨ c = '-' then finish (c :: r) p
    else if c = ')' then
      if p - 1 < 0 then .err else .ok ⟨r, [], p - 1, false⟩
    else if starts c r then
      (getElt (c :: r)).bind fun e =>
      (getNum e.2.1).bind fun d =>
      (parse n d.2 coef p).bind fun t =>
      .ok ⟨t.rest, (e.1, d.1 * coef) :: t.elts, t.paren, e.2.2 || t.bad⟩
    else if c = '(' then
      (parse n r coef (p + 1)).bind fun i =>
      (getNum i.rest).bind fun d =>
      (parse n d.2 coef i.paren).bind fun t =>
      .ok ⟨t.rest, scale d.1 i.elts ++ t.elts, t.paren, i.bad || t.bad⟩
    else if c = ':' then
      (getNum r).bind fun d =>
      (parse n d.2 coef p).bind fun i =>
      (parse n i.rest coef i.paren).bind fun t =>
      .ok ⟨t.rest, scale d.1 i.elts ++ t.elts, t.paren, i.bad || t.bad⟩
    else .err

/-- The call of a user of the function, with `paren_count` set to zero before
(for example utilities.cpp:239-242). -/
def elements (s : List Char) (coef : ℚ) : Res St := parse (s.length + 1) s coef 0

/-- The loop of `compute_gfw` over the entries, utilities.cpp:246-254: the sum, and whether the loop
ended without meeting an element of weight zero or less (then ERROR is returned). -/
def addWeights (w : Name → ℚ) : ℚ → List (Name × ℚ) → ℚ × Bool
  | g, [] => (g, true)
  | g, p :: l => if w p.1 ≤ 0 then (g, false) else addWeights w (g + p.2 * w p.1) l

/-- The map `gfw_map` of formula weights already computed. -/
abbrev Cache := List (Name × ℚ)

/-- The entry of the map for a formula, utilities.cpp:227. -/
def cached (m : Cache) (s : Name) : Option ℚ := (m.find? (fun p => p.1 == s)).map Prod.snd

/-- `compute_gfw`, utilities.cpp:218-257. `w` gives the weights of the elements, 0 for an element that
`element_store` has to create (structures.cpp:378-385). `strcpy_safe` rethrows without an exception
when the string does not fit (common/Utils.cxx:207-214), which ends the program. The result is the
value left in `*gfw`, the map afterwards, and whether OK was returned; an ERROR of
`get_elts_in_species` leaves `*gfw` as it was and is `.err` here. -/
def computeGfw (w : Name → ℚ) (m : Cache) (s : Name) : Res (ℚ × Cache × Bool) :=
  match cached m s with
  | some g => .ok (g, m, true)
  | none =>
    if maxLength < s.length + 1 then .stop
    else
      (elements s 1).bind fun t =>
      let g := addWeights w 0 t.elts
      .ok (g.1, if g.2 then (s, g.1) :: m else m, g.2)

/-- `IPhreeqcPhast::Get_gfw`, `/repo/src/IPhreeqcPhast/IPhreeqcPhast.cxx:46-52`: the return value of
`compute_gfw` is not looked at. After an ERROR of the reader a local variable that was never assigned
is returned. -/
def getGfw (w : Name → ℚ) (m : Cache) (s : Name) : Res (ℚ × Cache) :=
  match computeGfw w m s with
  | .ok r => .ok (r.1, r.2.1)
  | .err => .ub
  | .ub => .ub
  | .stop => .stop
  | .fuel => .fuel

/-- The loop of `FindComponents` over the components, `/repo/src/PhreeqcRM.cpp:2889-2900`. -/
def gfwAll (w : Name → ℚ) : Cache → List Name → Res (List ℚ × Cache)
  | m, [] => .ok ([], m)
  | m, c :: l =>
    (if c = "Charge".toList then .ok (1, m) else getGfw w m c).bind fun g =>
    (gfwAll w g.2 l).bind fun t => .ok (g.1 :: t.1, t.2)

end Verif.Formula
