import Verif.Mapping.Model
import Verif.Transfer.Model
import Mathlib.Algebra.Order.Field.Rat

/-!
# Loops over reaction cells and writes to grid arrays

The getters share one shape: a loop over the workers, a loop over the worker's cells, and a
write of the cell's values to every grid cell mapped to it. The setters share the loop over
workers and cells. `/repo/src/PhreeqcRM.cpp:3583-3619` is the pattern.
-/

namespace Verif.Grid

open Verif.Mapping Verif.Transfer

/-- `v[i]` on a `std::vector` with an `int` index; out of range is undefined behaviour. -/
def idx {α : Type} (l : List α) (i : Int) : Out α :=
  if i < 0 then .ub
  else match l[i.toNat]? with
    | some a => .ok a
    | none => .ub

/-- `INACTIVE_CELL_VALUE`, `const float 1.0e30f` (`/repo/src/PhreeqcRM.h`), converted to
double. -/
def inactive : ℚ := 1000000015047466219876688855040

/-- The pairs (worker, cell) visited by
`for (n = 0; n < nthreads; n++) for (j = start_cell[n]; j <= end_cell[n]; j++)`,
`/repo/src/PhreeqcRM.cpp:3583-3585`. -/
def ownedCells (rs : List (Int × Int)) : List (Nat × Int) :=
  rs.zipIdx.flatMap (fun p => (rangeCells p.1).map (fun c => (p.2, c)))

/-- `c[i] = v`. -/
def writeAt (c : List ℚ) (i : Nat) (v : ℚ) : Out (List ℚ) :=
  if i < c.length then .ok (c.set i v) else .ub

/-- `d_ptr[nxyz * k] = d[k]` for all `k`, with `d_ptr = &c[i]`,
`/repo/src/PhreeqcRM.cpp:3612-3617`. -/
def writeComps (nxyz nc i : Nat) (d c : List ℚ) : Out (List ℚ) :=
  (List.range nc).foldlM (fun c (k : Nat) => do
    let v ← idx d (k : Int)
    writeAt c (nxyz * k + i) v) c

/-- The loop over `backward_mapping[j]`, `/repo/src/PhreeqcRM.cpp:3609-3618`. -/
def writeCells (nxyz nc : Nat) (cells : List Nat) (d c : List ℚ) : Out (List ℚ) :=
  cells.foldlM (fun c i => writeComps nxyz nc i d c) c

/-- A grid getter: `init` is the array before the loop, `val` computes the `nc` values of a
cell. -/
def getGrid (s : MapState) (nc : Nat) (init : List ℚ) (val : Nat → Int → Out (List ℚ)) :
    Out (List ℚ) :=
  (ownedCells s.ranges).foldlM (fun c p => do
    let d ← val p.1 p.2
    let cells ← idx s.backward p.2
    writeCells s.nxyz nc cells d c) init

/-- A loop over workers and cells that replaces something stored per worker and cell, when
there is something (`if (soln_ptr) ...`). -/
def updateCells {σ : Type} (rs : List (Int × Int)) (f : Nat → Int → σ → Out σ)
    (w : Nat → Int → Option σ) : Out (Nat → Int → Option σ) :=
  (ownedCells rs).foldlM (fun w p =>
    match w p.1 p.2 with
    | none => .ok w
    | some x => do
      let y ← f p.1 p.2 x
      .ok (fun n j => if n = p.1 ∧ j = p.2 then some y else w n j)) w

end Verif.Grid
