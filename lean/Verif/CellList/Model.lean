import Verif.Base
import Verif.OMap.Set
import Verif.Store.Model
import Mathlib.Algebra.Order.Field.Rat

/-!
# Lists of cell numbers

Model of `/repo/src/IPhreeqcPhast/IPhreeqc/phreeqcpp/StorageBinList.cpp`: lists of numbers as in
`DELETE; -cells 1 3-5 7`, and what they select. The split of a line into words and the
recognition of the option at its beginning are not modelled.
-/

namespace Verif.CellList

open Verif.Store

/-- `StorageBinListItem`, StorageBinList.h:10-26. -/
structure Item where
  numbers : List Int      -- std::set<int>
  defined : Bool
  deriving DecidableEq, Repr

/-- Range of `int`. -/
def InInt (i : Int) : Prop := -2147483648 ≤ i ∧ i ≤ 2147483647

instance (i : Int) : Decidable (InInt i) := inferInstanceAs (Decidable (_ ∧ _))

/-- The digits at the beginning of a text: their value and the rest. -/
def readDigits : List Char → Nat → Nat × List Char
  | [], v => (v, [])
  | c :: cs, v => if c.isDigit then readDigits cs (10 * v + (c.toNat - 48)) else (v, c :: cs)

/-- `iss >> i` for an `int`: spaces, a sign, digits. It fails without digits and when the number
does not fit. -/
def readInt (s : List Char) : Option (Int × List Char) :=
  let s := s.dropWhile (· = ' ')
  let neg := s.head? = some '-'
  let t := if s.head? = some '-' ∨ s.head? = some '+' then s.tail else s
  match t with
  | [] => none
  | c :: _ =>
    if c.isDigit then
      let r := readDigits t 0
      let v : Int := if neg then -(r.1 : Int) else r.1
      if InInt v then some (v, r.2) else none
    else none

/-- `token.replace(pos, 2, " &")` at the first `--`, StorageBinList.cpp:52-56. -/
def replaceDD : List Char → List Char
  | [] => []
  | [c] => [c]
  | c :: d :: r => if c = '-' ∧ d = '-' then ' ' :: '&' :: r else c :: replaceDD (d :: r)

/-- `std::replace(token.begin() + 1, token.end(), a, b)`. -/
def replaceTail (a b : Char) : List Char → List Char
  | [] => []
  | c :: r => c :: r.map (fun x => if x = a then b else x)

/-- The numbers of a token, StorageBinList.cpp:51-73: `temp_set`. -/
def tokenNumbers (t : List Char) : List Int :=
  let t := replaceTail '&' '-' (replaceTail '-' ' ' (replaceDD t))
  match readInt t with
  | none => []
  | some (i, rest) =>
    match readInt rest with
    | none => [i]
    | some (j, _) => OSet.ins [i] j

/-- The integers from `i` to `j`. -/
def between (i j : Int) : List Int := (List.range (j - i + 1).toNat).map (fun n : Nat => i + n)

/-- `Augment(std::string)`, StorageBinList.cpp:46-93. A range up to the largest `int` makes the
counter of the loop overflow. -/
def augment (it : Item) (t : List Char) : Out Item :=
  if t = [] then .ok { it with defined := true }
  else
    match tokenNumbers t with
    | [i] => .ok ⟨OSet.ins it.numbers i, true⟩
    | [i, j] => if j = 2147483647 then .ub else .ok ⟨OSet.insAll it.numbers (between i j), true⟩
    | _ => .ok { it with defined := true }

/-- `Augment(int)`, StorageBinList.cpp:94-100. -/
def augmentInt (it : Item) (i : Int) : Item :=
  if it.defined ∧ it.numbers = [] then it else ⟨OSet.ins it.numbers i, true⟩

/-- The words of a line; at the end `Augment("")`, StorageBinList.cpp:224-255. -/
def augmentLine (it : Item) : List (List Char) → Out Item
  | [] => augment it []
  | t :: ts => do
    let it ← augment it t
    augmentLine it ts

/-- What a line is about: one kind, `-all` or `-cells`, StorageBinList.cpp:337-358. -/
inductive Opt
  | kind (k : Kind)
  | all
  | cells
  deriving DecidableEq

/-- `StorageBinList`: an item for each kind, and `cell`. -/
structure BinList where
  items : Kind → Item
  cell  : Item

/-- Kinds of `GetAllItems`, StorageBinList.cpp:119-135. -/
def allItems : List Kind :=
  [.solution, .ppAssemblage, .exchange, .surface, .ssAssemblage, .gasPhase, .kinetics, .mix,
    .reaction, .temperature, .pressure]

/-- `SetAll(true)`, StorageBinList.cpp:137-146. -/
def setAll (b : BinList) : BinList :=
  { b with items := fun k => if k ∈ allItems then ⟨[], true⟩ else b.items k }

/-- One line, StorageBinList.cpp:157-306. -/
def readLine (b : BinList) (l : Opt × List (List Char)) : Out BinList :=
  match l.1 with
  | .kind k => do
    let it ← augmentLine (b.items k) l.2
    .ok { b with items := fun k' => if k' = k then it else b.items k' }
  | .all => .ok (setAll b)
  | .cells => do
    let it ← augmentLine b.cell l.2
    .ok { b with cell := it }

def readLines (b : BinList) : List (Opt × List (List Char)) → Out BinList
  | [] => .ok b
  | l :: ls => do
    let b ← readLine b l
    readLines b ls

/-- `TransferAll`, StorageBinList.cpp:324-336. -/
def transferAll (b : BinList) : BinList :=
  { b with items := fun k =>
      if k ∈ allItems then b.cell.numbers.foldl augmentInt (b.items k) else b.items k }

/-- The end of `Read`, StorageBinList.cpp:308-320. -/
def finishRead (b : BinList) : BinList :=
  if b.cell.defined then
    if b.cell.numbers = [] then setAll b else transferAll b
  else b

/-- `Read` into a list with nothing defined, StorageBinList.cpp:148-322. -/
def read (ls : List (Opt × List (List Char))) : Out BinList := do
  let b ← readLines ⟨fun _ => ⟨[], false⟩, ⟨[], false⟩⟩ ls
  .ok (finishRead b)

/-- `delete_entities`,
`/repo/src/IPhreeqcPhast/IPhreeqc/phreeqcpp/ReadClass.cxx:265-460`: what is left of the
reactants. -/
def deleteEntities {α : Type} (b : BinList) (p : Bin α) : Bin α := fun k n =>
  if (b.items k).defined then
    if (b.items k).numbers = [] then none
    else if n ∈ (b.items k).numbers then none else p k n
  else p k n

end Verif.CellList
