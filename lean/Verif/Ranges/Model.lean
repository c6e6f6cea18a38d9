import Verif.Base

/-!
# Initial distribution of reaction cells over workers

Model of `PhreeqcRM::SetEndCells`, `/repo/src/PhreeqcRM.cpp:11624-11654`.
-/

namespace Verif.Ranges

/-- The vector `cells`, `/repo/src/PhreeqcRM.cpp:11633-11643`: the first `extra`
tasks get `n+1` cells, the others `n`. -/
def cellCounts (count ntasks : Nat) : List Nat :=
  let n := count / ntasks
  let extra := count - n * ntasks
  List.replicate extra (n + 1) ++ List.replicate (ntasks - extra) n

/-- The loop filling `start_cell` and `end_cell`,
`/repo/src/PhreeqcRM.cpp:11644-11653`. -/
def fillRanges : Int → List Nat → List (Int × Int)
  | _, [] => []
  | cell0, k :: ks => (cell0, cell0 + k - 1) :: fillRanges (cell0 + k) ks

/-- `PhreeqcRM::SetEndCells`, `/repo/src/PhreeqcRM.cpp:11624-11654` (without MPI,
`ntasks = nthreads`). A zero task count divides by zero. -/
def setEndCells (count ntasks : Nat) : Out (List (Int × Int)) :=
  if ntasks = 0 then .ub else .ok (fillRanges 0 (cellCounts count ntasks))

end Verif.Ranges
