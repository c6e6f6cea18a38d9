import Verif.Base
import Verif.Catalog.Model

/-!
# Tables of the Python interface

`GetSpeciesStoichiometry` and `GetBackwardMapping` of the Python class, `/repo/swig/PhreeqcRM.i:187-216`, with the functions of the class they
call, `/repo/src/PhreeqcRM.cpp:5220-5237` and `3440-3453`. A table goes through the interface as flat lists and is taken apart again
in Python.

Simplifications: a dictionary is a map without the order of insertion; an index past the end of a Python list is an exception (`throw`); sizes are not
limited to `int`. The lists given to the functions of the class are new ones (`&OUTPUT`, `/repo/swig/PhreeqcRM.i:87-90`), except in `fillStoich`,
where they are given.
-/

namespace Verif.Python

open Verif.OMap Verif.NameDouble

/-- The flat lists of the stoichiometries: number of elements of each species, names of elements, coefficients. -/
structure Flat where
  nelt : List Int
  elts : List Name
  coef : List ℚ

/-- The loop of `GetSpeciesStoichiometrySWIG`, `/repo/src/PhreeqcRM.cpp:5226-5236`, from species `i` on. -/
def fillStoich (st : List ND) : List Name → Nat → Flat → Out Flat
  | [], _, f => .ok f
  | _ :: rest, i, f =>
    match st[i]? with
    | none => .ub
    | some nd => fillStoich st rest (i + 1)
        ⟨f.nelt ++ [(nd.length : Int)], f.elts ++ nd.map Prod.fst, f.coef ++ nd.map Prod.snd⟩

/-- Indexing of a Python list by a number that is not negative. -/
def pyIdx {α : Type} (l : List α) (j : Nat) : Out α :=
  match l[j]? with
  | none => .throw
  | some x => .ok x

/-- The inner loop, `/repo/swig/PhreeqcRM.i:198-200`: `n` passes from `j_tot` on, into the dictionary `d`. -/
def pyElements (elts : List Name) (coefs : List ℚ) : Nat → Nat → ND → Out (Nat × ND)
  | 0, j, d => .ok (j, d)
  | n + 1, j, d => do
    let e ← pyIdx elts j
    let c ← pyIdx coefs j
    pyElements elts coefs n (j + 1) (insert d e c)

/-- The outer loop, `/repo/swig/PhreeqcRM.i:195-201`, from species `i` on. `range(n)` is empty for negative `n`. -/
def pySpecies (f : Flat) : List Name → Nat → Nat → SMap Name ND → Out (SMap Name ND)
  | [], _, _, all => .ok all
  | s :: rest, i, j, all => do
    let n ← pyIdx f.nelt i
    let r ← pyElements f.elts f.coef n.toNat j []
    pySpecies f rest (i + 1) r.1 (insert all s r.2)

/-- `GetSpeciesStoichiometry` in Python, `/repo/swig/PhreeqcRM.i:187-202`. -/
def stoichiometry (l : Catalog.Lists) : Out (SMap Name ND) := do
  let f ← fillStoich l.stoich l.names 0 ⟨[], [], []⟩
  pySpecies f l.names 0 0 []

/-- `GetBackwardMappingSWIG`, `/repo/src/PhreeqcRM.cpp:3440-3453`. -/
def flatBack (back : List (List Int)) : List Int × List Int :=
  back.foldl (fun o b => (o.1 ++ [(b.length : Int)], o.2 ++ b)) ([], [])

/-- The inner loop, `/repo/swig/PhreeqcRM.i:212-214`. -/
def pyCells (cells : List Int) : Nat → Nat → List Int → Out (Nat × List Int)
  | 0, j, b => .ok (j, b)
  | n + 1, j, b => do
    let c ← pyIdx cells j
    pyCells cells n (j + 1) (b ++ [c])

/-- The outer loop, `/repo/swig/PhreeqcRM.i:209-215`, over the counts from cell `i` on. -/
def pyBack (cells : List Int) : List Int → Nat → Nat → SMap Nat (List Int) → Out (SMap Nat (List Int))
  | [], _, _, all => .ok all
  | n :: rest, i, j, all => do
    let r ← pyCells cells n.toNat j []
    pyBack cells rest (i + 1) r.1 (insert all i r.2)

/-- `GetBackwardMapping` in Python, `/repo/swig/PhreeqcRM.i:203-216`. -/
def backwardMapping (back : List (List Int)) : Out (SMap Nat (List Int)) :=
  pyBack (flatBack back).2 (flatBack back).1 0 0 []

end Verif.Python
