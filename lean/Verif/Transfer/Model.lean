import Verif.Ranges.Model
import Verif.Store.Model

/-!
# Moving cells between workers, and running the cells of all workers

* The loop that moves cells after rebalancing, `/repo/src/PhreeqcRM.cpp:8636-8678`
  (`RebalanceLoad`) and `:9568-9607` (`RebalanceLoadPerCell`); the two copies are
  identical.
* The loop over cells in `RunCellsThread`, `/repo/src/PhreeqcRM.cpp:10331-10470`, and
  the parallel loop over workers in `RunCells`, `:9872-9880`.
-/

namespace Verif.Transfer

open Verif.Store

/-- The parts of the workers that hold reactants: the phreeqc reactant maps and the
unsaturated-zone storage bin (`uz_bin`) of every worker. -/
structure Workers (α : Type) where
  rx : Nat → Bin α
  uz : Nat → Bin α

/-- Replace the bin of one worker. -/
def setAt {β : Type} (f : Nat → β) (i : Nat) (v : β) : Nat → β := fun j => if j = i then v else f j

/-- `while (k > end_cell[i]) i++`, `/repo/src/PhreeqcRM.cpp:8644-8651`. The list holds
the last cells from index `i` on; running past the end of the vector is undefined. -/
def advance (k : Int) : Nat → List Int → Out (Nat × List Int)
  | _, [] => .ub
  | i, e :: es => if k > e then advance k (i + 1) es else .ok (i, e :: es)

/-- Body of the loop for a cell `k` that changes from worker `old` to worker `new`,
`/repo/src/PhreeqcRM.cpp:8656-8676`. Simplification: the input `DELETE; -cell k` does not
fail. -/
def moveCell {α : Type} (uzOn : Bool) (w : Workers α) (old new : Nat) (k : Int) : Workers α :=
  let temp := phreeqc2bin (w.rx old) empty k
  let rx1 := setAt w.rx new (bin2phreeqc (w.rx new) temp k)
  let rx2 := setAt rx1 old (deleteCell (rx1 old) k)
  if uzOn then
    let uz1 := setAt w.uz new (add (w.uz new) (w.uz old) k)
    let uz2 := setAt uz1 old (remove (uz1 old) k)
    { rx := rx2, uz := uz2 }
  else { rx := rx2, uz := w.uz }

/-- The loop over `n` cells starting with cell `k`; `(i, os)` and `(j, ns)` are the
current positions in the old and the new last cells. -/
def moveLoop {α : Type} (uzOn : Bool) :
    Nat → Int → Nat → List Int → Nat → List Int → Workers α → Out (Workers α)
  | 0, _, _, _, _, _, w => .ok w
  | n + 1, k, i, os, j, ns, w => do
    let (i', os') ← advance k i os
    let (j', ns') ← advance k j ns
    let w' := if i' = j' then w else moveCell uzOn w i' j' k
    moveLoop uzOn n (k + 1) i' os' j' ns' w'

/-- Move all cells that change owner, from the ranges `old` to the ranges `new`. -/
def redistribute {α : Type} (uzOn : Bool) (count : Nat) (old new : List (Int × Int))
    (w : Workers α) : Out (Workers α) :=
  moveLoop uzOn count 0 0 (old.map Prod.snd) 0 (new.map Prod.snd) w

/-! ## Running cells -/

/-- The reactants of one cell. -/
abbrev Cell (α : Type) := Kind → Option α

/-- Reading cell `c` of a bin. -/
def cellOf {α : Type} (b : Bin α) (c : Int) : Cell α := fun k => b k c

/-- Replacing cell `c` of a bin. -/
def putCell {α : Type} (b : Bin α) (c : Int) (x : Cell α) : Bin α :=
  fun k n => if n = c then x k else b k n

/-- What a worker thread still has to do and whether it stopped with an error. -/
structure Thread (α : Type) where
  bin : Bin α
  todo : List Int
  failed : Bool

/-- One pass of the loop over cells in `RunCellsThread`, `/repo/src/PhreeqcRM.cpp:10331-10470`.
`react c` is what running cell `c` does to the contents of the cell (the identity for a
dry cell), `none` if the calculation fails. With error handler mode 3 (`cont`) a failing
cell is left as it was and the loop goes on, otherwise the worker stops.
Assumption: running a cell reads and writes only the reactants with the number of
this cell (plus settings common to all workers); selected output is treated in
`Verif.SelOut`. -/
def stepThread {α : Type} (react : Int → Cell α → Option (Cell α)) (cont : Bool)
    (t : Thread α) : Thread α :=
  match t.todo with
  | [] => t
  | c :: cs =>
    match react c (cellOf t.bin c) with
    | some x => { t with bin := putCell t.bin c x, todo := cs }
    | none => if cont then { t with todo := cs } else { t with todo := [], failed := true }

/-- Cells of a range, `for (i = start; i <= end; i++)`, `/repo/src/PhreeqcRM.cpp:10339`. -/
def rangeCells (r : Int × Int) : List Int :=
  (List.range (r.2 - r.1 + 1).toNat).map (fun n : Nat => r.1 + n)

/-- The workers at the start of the parallel loop, `/repo/src/PhreeqcRM.cpp:9872-9880`. -/
def startThreads {α : Type} (rs : List (Int × Int)) (w : Nat → Bin α) : Nat → Thread α :=
  fun i => match rs[i]? with
    | some r => { bin := w i, todo := rangeCells r, failed := false }
    | none => { bin := w i, todo := [], failed := false }

/-- Execution of a schedule: at each moment one worker makes a step. Each worker has
its own phreeqc instance, so a step changes only its own worker. -/
def runSchedule {α : Type} (react : Int → Cell α → Option (Cell α)) (cont : Bool) :
    List Nat → (Nat → Thread α) → (Nat → Thread α)
  | [], ts => ts
  | i :: s, ts => runSchedule react cont s (setAt ts i (stepThread react cont (ts i)))

end Verif.Transfer
