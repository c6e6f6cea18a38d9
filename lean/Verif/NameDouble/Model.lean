import Verif.OMap.Basic
import Mathlib.Algebra.Order.Field.Rat

/-!
# Named values (`cxxNameDouble`)

Model of `/repo/src/IPhreeqcPhast/IPhreeqc/phreeqcpp/NameDouble.cxx`. A `cxxNameDouble` is a
`std::map<std::string, double>`; names are byte strings, here lists of characters ordered
lexicographically by code (`std::string::operator<` and `strcmp` both compare bytes as
unsigned). Names hold no NUL byte. Doubles are rationals. The tag `type` is not modelled;
where it changes the behaviour the two variants are separate definitions.
-/

namespace Verif.NameDouble

open Verif.OMap

/-- A name (`std::string`). -/
abbrev Name := List Char

/-- `cxxNameDouble` (NameDouble.h, `std::map<std::string, LDBLE>`). -/
abbrev ND := SMap Name ℚ

/-- `cxxNameDouble(const cxxNameDouble &old, LDBLE factor)` with `old.type == ND_ELT_MOLES`
(NameDouble.cxx:50-71): entries whose product is not positive are dropped. -/
def scaledMoles (old : ND) (factor : ℚ) : ND :=
  old.foldl (fun m p => if p.2 * factor > 0 then insert m p.1 (p.2 * factor) else m) []

/-- One entry of the loop in `add_extensive` (NameDouble.cxx:208-220). -/
def addEntry (factor : ℚ) (m : ND) (p : Name × ℚ) : ND :=
  match find m p.1 with
  | some cur => insert m p.1 (cur + p.2 * factor)
  | none     => insert m p.1 (p.2 * factor)

/-- `add_extensive` (NameDouble.cxx:200-221). -/
def addExtensive (m addee : ND) (factor : ℚ) : ND :=
  if factor = 0 then m else addee.foldl (addEntry factor) m

/-- One entry of the loop in `add_intensive` (NameDouble.cxx:230-242). -/
def mixEntry (f1 f2 : ℚ) (m : ND) (p : Name × ℚ) : ND :=
  match find m p.1 with
  | some cur => insert m p.1 (f1 * cur + f2 * p.2)
  | none     => insert m p.1 (f2 * p.2)

/-- `add_intensive` (NameDouble.cxx:222-243). The assertion on the signs of the weights is
not modelled. -/
def addIntensive (m addee : ND) (f1 f2 : ℚ) : ND := addee.foldl (mixEntry f1 f2) m

/-- `multiply` (NameDouble.cxx:421-432). -/
def multiply (m : ND) (x : ℚ) : ND := m.map (fun p => (p.1, p.2 * x))

/-- `add(token, total)` (NameDouble.cxx:402-420). The copy through a `MAX_LENGTH` buffer is
not modelled. -/
def add (m : ND) (token : Name) (total : ℚ) : ND :=
  match find m token with
  | some cur => insert m token (cur + total)
  | none     => insert m token total

/-- Element name used by `Simplify_redox` (NameDouble.cxx:283-300, 315-331): names shorter than
four characters are kept whole, others are cut at the first parenthesis. -/
def ename (n : Name) : Name := if n.length < 4 then n else n.takeWhile (· ≠ '(')

/-- Names left out by `Simplify_redox` (NameDouble.cxx:301). -/
def omitted (n : Name) : Bool := n = ['H'] || n = ['O'] || n = "Charge".toList

/-- First pass of `Simplify_redox` (NameDouble.cxx:280-305). -/
def enameList (nd : ND) : ND :=
  nd.foldl (fun m p => if omitted (ename p.1) then m else insert m (ename p.1) 0) []

/-- Second pass of `Simplify_redox` (NameDouble.cxx:307-347): two iterators advanced by
comparing the current names. -/
def join : ND → ND → ND
  | [], new => new
  | _ :: _, [] => []
  | (n, v) :: old, (e, w) :: new =>
    if e < ename n then (e, w) :: join ((n, v) :: old) new
    else if e = ename n then join old ((e, w + v) :: new)
    else join old ((e, w) :: new)
termination_by old new => old.length + new.length

/-- `Simplify_redox` (NameDouble.cxx:268-349). -/
def simplifyRedox (nd : ND) : ND := join nd (enameList nd)

/-- `Get_total_element` (NameDouble.cxx:379-401). -/
def getTotalElement (nd : ND) (e : Name) : ℚ :=
  nd.foldl (fun d p => if p.1.takeWhile (· ≠ '(') = e then d + p.2 else d) 0

/-- Prefix removed by `merge_redox` for a name with a parenthesis (NameDouble.cxx:446-452):
`substr(0, pos - 1)`. For `pos = 0` the unsigned subtraction wraps and the whole name is
taken. -/
def cutName (n : Name) : Name :=
  let pos := (n.takeWhile (· ≠ '(')).length
  if pos = 0 then n else n.take (pos - 1)

/-- One source entry of `merge_redox` (NameDouble.cxx:443-493). The restarting loop
476-490 removes every name starting with `elt(`. -/
def mergeEntry (m : ND) (p : Name × ℚ) : ND :=
  if '(' ∈ p.1 then
    insert (erase m (cutName p.1)) p.1 p.2
  else
    insert (m.filter (fun q => !((p.1 ++ ['(']).isPrefixOf q.1))) p.1 p.2

/-- `merge_redox` (NameDouble.cxx:433-495). -/
def mergeRedox (m source : ND) : ND := source.foldl mergeEntry m

end Verif.NameDouble
