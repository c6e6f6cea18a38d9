import Verif.Grid.Model

/-!
# The check for missing solutions

Model of `PhreeqcRM::CheckCells` in the build without MPI, `/repo/src/PhreeqcRM.cpp:765-802`.
The text of the message is kept as its lines: the number printed after `Chem cell` and the
numbers printed after `Grid cell(s)`.
-/

namespace Verif.CheckCells

open Verif.Mapping Verif.Grid Verif.Ranges

/-- Outcome: `IRM_OK`, or the message and the exception `PhreeqcRMStop`. -/
inductive Check
  | fine
  | stopped (lines : List (Nat × List Nat))
  deriving DecidableEq, Repr

/-- The vector `missing`, `/repo/src/PhreeqcRM.cpp:770-782`. `sol n j` tells whether worker `n`
has a solution for cell `j`. -/
def missing (rs : List (Int × Int)) (sol : Nat → Int → Bool) : List Int :=
  ((ownedCells rs).filter (fun p => !sol p.1 p.2)).map Prod.snd

/-- The lines of the message, `/repo/src/PhreeqcRM.cpp:788-797`: the loop variable `i`, not
`missing[i]`, is printed and looked up. -/
def message (backward : List (List Nat)) (k : Nat) : Out (List (Nat × List Nat)) :=
  (List.range k).mapM (fun (i : Nat) => do
    let cells ← idx backward (i : Int)
    .ok (i, cells))

/-- `CheckCells`, `/repo/src/PhreeqcRM.cpp:765-802`. -/
def checkCells (s : MapState) (sol : Nat → Int → Bool) : Out Check :=
  let m := missing s.ranges sol
  if 0 < m.length then do
    let l ← message s.backward m.length
    .ok (.stopped l)
  else .ok .fine

end Verif.CheckCells
