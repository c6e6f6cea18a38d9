import Verif.Grid.Model
import Verif.Getters.Model

/-!
# Distributing grid arrays over processes and collecting them (C60)

Model of `PhreeqcRM::ScatterNchem` and `PhreeqcRM::GatherNchem` of the MPI build. The vectors of
all processes are kept together in one list, process `j` having element `j`; `MapState.ranges`
holds `start_cell`/`end_cell` of the processes.

`MPI_Scatterv` gives process `j` the `counts[j]` elements from `displs[j]` on, `MPI_Gatherv` puts
them there; ranges outside the buffer are undefined.
-/

namespace Verif.Scatter

open Verif.Mapping Verif.Grid Verif.Getters

/-- The values of the first grid cells, in the order of the reaction cells
(PhreeqcRM.cpp:10926-10935, the `int` version 10972-10981). -/
def compress {α : Type} (s : MapState) (source : List α) : Out (List α) :=
  (List.range s.count).mapM (fun (j : Nat) => do
    let cells ← idx s.backward (j : Int)
    let ixyz ← idx cells 0
    idx source (ixyz : Int))

/-- The part of one process in `MPI_Scatterv` (PhreeqcRM.cpp:10942-10958): `&(destination[0])`
is undefined for an empty range. -/
def slice {α : Type} (d : List α) (r : Int × Int) : Out (List α) :=
  if 0 ≤ r.1 ∧ r.1 ≤ r.2 ∧ r.2 < d.length then
    .ok ((d.drop r.1.toNat).take (r.2 - r.1 + 1).toNat)
  else .ub

/-- `PhreeqcRM::ScatterNchem(source, destination)` (PhreeqcRM.cpp:10920-10962, 10966-11008):
the destination vectors of all processes. -/
def scatter {α : Type} (s : MapState) (source : List α) : Out (List (List α)) := do
  let d ← compress s source
  s.ranges.mapM (slice d)

/-- The part of one process in `MPI_Gatherv` (PhreeqcRM.cpp:3276-3294): `send_count` elements are
read from its vector, which may be longer. -/
def place (buf : List ℚ) (p : (Int × Int) × List ℚ) : Out (List ℚ) :=
  let a := p.1.1.toNat
  let n := (p.1.2 - p.1.1 + 1).toNat
  if 0 ≤ p.1.1 ∧ p.1.1 ≤ p.1.2 ∧ p.1.2 < buf.length ∧ n ≤ p.2.length then
    .ok (buf.take a ++ p.2.take n ++ buf.drop (a + n))
  else .ub

/-- `dbuffer` on the root after `MPI_Gatherv` (PhreeqcRM.cpp:3284-3294). -/
def gatherBuf (s : MapState) (pieces : List (List ℚ)) : Out (List ℚ) :=
  (s.ranges.zip pieces).foldlM place (List.replicate s.count 0)

/-- The loop placing the values in the grid (PhreeqcRM.cpp:3297-3309). -/
def expand (s : MapState) (buf dest : List ℚ) : Out (List ℚ) :=
  (List.range s.count).foldlM (fun (d : List ℚ) (j : Nat) => do
    let cells ← idx s.backward (j : Int)
    let v ← idx buf (j : Int)
    cells.foldlM (fun d n => writeAt d n v) d) (resize dest s.nxyz 0)

/-- `PhreeqcRM::GatherNchem(source, destination)` (PhreeqcRM.cpp:3266-3313): the destination
vector of the root. -/
def gather (s : MapState) (pieces : List (List ℚ)) (dest : List ℚ) : Out (List ℚ) := do
  let buf ← gatherBuf s pieces
  expand s buf dest

end Verif.Scatter
