import Verif.Ranges.Model

/-!
# Grid to reaction-cell mapping

Model of `PhreeqcRM::CreateMapping`, `/repo/src/PhreeqcRM.cpp:1675-1800` (without
MPI, so `mpi_myself == 0`). Mutations happen in the order of the code, so the state
after a failing call is the state the code leaves behind.
-/

namespace Verif.Mapping

open Verif.Ranges

/-- The members touched by `CreateMapping`. -/
structure MapState where
  nxyz : Nat
  nthreads : Nat
  count : Nat                     -- count_chemistry
  forward : List Int              -- forward_mapping_root
  backward : List (List Nat)      -- backward_mapping
  ranges : List (Int × Int)       -- start_cell / end_cell
  deriving DecidableEq, Repr

/-- The loop finding the largest entry, `/repo/src/PhreeqcRM.cpp:1708-1715`. -/
def maxLoop (g : List Int) : Int := g.foldl (fun c x => if x > c then x else c) 0

/-- One pass of the fill loop, `/repo/src/PhreeqcRM.cpp:1744-1763`; `none` when the
out-of-range error is raised. `i` is the grid cell, `fwd`/`back` the vectors built so
far. -/
def fillLoop (count : Nat) : Nat → List Int → List Int → List (List Nat) →
    Option (List Int × List (List Nat))
  | _, [], fwd, back => some (fwd, back)
  | i, n :: rest, fwd, back =>
    if n ≥ (count : Int) then none
    else fillLoop count (i + 1) rest (fwd ++ [n])
      (if n ≥ 0 then back.modify n.toNat (· ++ [i]) else back)

/-- The loop that marks all but the first grid cell of a reaction cell,
`/repo/src/PhreeqcRM.cpp:1765-1777`. -/
def markLoop (fwd : List Int) (back : List (List Nat)) : List Int :=
  back.foldl (fun f cells => cells.tail.foldl (fun f n => f.set n (-1)) f) fwd

/-- `PhreeqcRM::CreateMapping`, `/repo/src/PhreeqcRM.cpp:1675-1800`, with error
handler mode 0. Every error is thrown by `ErrorHandler` and turned into `IRM_FAIL` by
the `catch` at 1795-1798. -/
def createMapping (s : MapState) (g : List Int) : Out (IRM × MapState) :=
  if g.length ≠ s.nxyz then .ok (.fail, s)
  else
    let s1 := { s with backward := [], forward := [], count := (maxLoop g + 1).toNat }
    if s1.nthreads > s1.count then .ok (.fail, s1)
    else
      match fillLoop s1.count 0 g [] (List.replicate s1.count []) with
      | none => .ok (.fail, s1)   -- never taken, see `fillLoop_eq`
      | some (fwd, back) =>
        let s2 := { s1 with forward := markLoop fwd back, backward := back }
        if back.any List.isEmpty then .ok (.fail, s2)
        else do
          let rs ← setEndCells s2.count s2.nthreads
          pure (.ok, { s2 with ranges := rs })

/-- `PhreeqcRM::Construct`, `/repo/src/PhreeqcRM.cpp:299-303` (number of workers) and
`:347-375` (identity mapping and ranges). `threads` is the constructor argument,
`ncpu` the number of processors. Simplification: a negative grid size is not modelled. -/
def construct (nxyz : Nat) (threads : Int) (ncpu : Nat) : Out MapState :=
  let n0 : Nat := if threads > 0 then threads.toNat else ncpu
  let nthreads := if n0 < nxyz then n0 else nxyz
  do
    let rs ← setEndCells nxyz nthreads
    pure { nxyz := nxyz, nthreads := nthreads, count := nxyz,
           forward := (List.range nxyz).map (fun i : Nat => (i : Int)),
           backward := (List.range nxyz).map (fun i => [i]),
           ranges := rs }

end Verif.Mapping
