import Verif.Ranges.Model
import Mathlib.Algebra.Order.Field.Rat
import Mathlib.Data.Rat.Floor

/-!
# Load rebalancing

Models of the threaded `PhreeqcRM::RebalanceLoad`, `/repo/src/PhreeqcRM.cpp:8453-8698`,
and `PhreeqcRM::RebalanceLoadPerCell`, `/repo/src/PhreeqcRM.cpp:9416-9628`, up to the
new ranges (the transfer of cells is modelled in `Verif.Transfer`). Times are rationals.
-/

namespace Verif.Rebalance

open Verif.Ranges

/-- `(int) x`: conversion of a double to int truncates toward zero. -/
def truncQ (x : ℚ) : Int := if 0 ≤ x then ⌊x⌋ else ⌈x⌉

/-- Ranges from a first start and the list of last cells; in the code
`start_cell_new[i + 1] = end_cell_new[i] + 1` (8632 and 9563). -/
def fromEnds : Int → List Int → List (Int × Int)
  | _, [] => []
  | a, e :: es => (a, e) :: fromEnds (e + 1) es

/-- Number of cells moved at one boundary, by worker: `/repo/src/PhreeqcRM.cpp:8630`. -/
def shiftThread (f : ℚ) (d : Int) : Int := truncQ (d * f)

/-- Number of cells moved at one boundary, by cell: `/repo/src/PhreeqcRM.cpp:9556-9561`;
a truncated shift of zero is replaced by the full shift. -/
def shiftCell (f : ℚ) (d : Int) : Int :=
  let icells := truncQ (d * f)
  if icells = 0 then d else icells

/-- The loop over `i < nthreads - 1` that blends old and new last cells,
`/repo/src/PhreeqcRM.cpp:8628-8633` and `:9553-9564`; the last entry stays the new one. -/
def blendEnds (shift : Int → Int) : List Int → List Int → List Int
  | o :: o' :: os, n :: n' :: ns => (o + shift (n - o)) :: blendEnds shift (o' :: os) (n' :: ns)
  | [_], [n] => [n]
  | _, _ => []

/-! ## By worker -/

/-- Time per cell of each worker, `/repo/src/PhreeqcRM.cpp:8487-8505`; `t` holds the
worker times, `rs` the current ranges. -/
def perCellTimes (t : List ℚ) (rs : List (Int × Int)) : List ℚ :=
  let avg := t.sum / t.length
  (t.zip rs).map (fun p => (if p.1 = 0 then avg / 4 else p.1) / (size p.2 : ℚ))
where size (r : Int × Int) : Int := r.2 - r.1 + 1

/-- Cells per worker rounded down, at least one, `/repo/src/PhreeqcRM.cpp:8507-8530`. -/
def roundedCells (count : Nat) (r0 : ℚ) (r : List ℚ) : List Int :=
  let total := (r.map (fun x => r0 / x)).sum
  let newN := (count : ℚ) / total
  r.map (fun x => let n := ⌊newN * r0 / x⌋; if n < 1 then 1 else n)

/-- Search for the worker to receive a cell, `/repo/src/PhreeqcRM.cpp:8539-8548`. -/
def argMin : Nat → List (Int × ℚ) → Nat → ℚ → Nat
  | _, [], best, _ => best
  | i, (c, r) :: rest, best, bt =>
    if (c + 1) * r < bt then argMin (i + 1) rest i ((c + 1) * r) else argMin (i + 1) rest best bt

/-- Search for the worker to give up a cell, `/repo/src/PhreeqcRM.cpp:8555-8567`; `none`
is the value `-1`. -/
def argMax : Nat → List (Int × ℚ) → Option Nat → ℚ → Option Nat
  | _, [], best, _ => best
  | i, (c, r) :: rest, best, bt =>
    if c > 1 ∧ (c - 1) * r > bt then argMax (i + 1) rest (some i) ((c - 1) * r)
    else argMax (i + 1) rest best bt

/-- `diff` times: add one cell to the worker found, `/repo/src/PhreeqcRM.cpp:8535-8550`. -/
def addCells (r : List ℚ) : Nat → List Int → List Int
  | 0, cells => cells
  | k + 1, cells =>
    match cells, r with
    | c0 :: _, r0 :: _ =>
      addCells r k (cells.modify (argMin 1 (cells.zip r).tail 0 ((c0 + 1) * r0)) (· + 1))
    | _, _ => cells

/-- `-diff` times: take one cell from the worker found, `/repo/src/PhreeqcRM.cpp:8551-8569`;
`cells_v[-1]` is out of bounds. -/
def removeCells (r : List ℚ) : Nat → List Int → Out (List Int)
  | 0, cells => .ok cells
  | k + 1, cells =>
    match argMax 0 (cells.zip r) none 0 with
    | none => .ub
    | some i => removeCells r k (cells.modify i (· - 1))

/-- New number of cells per worker, `/repo/src/PhreeqcRM.cpp:8507-8570`. A zero per-cell
time makes the sum infinite or NaN and its conversion to `int` undefined. -/
def newCells (count : Nat) (r : List ℚ) : Out (List Int) :=
  match r with
  | [] => .ub
  | r0 :: _ =>
    if r.any (· = 0) then .ub
    else
      let cells := roundedCells count r0 r
      let diff : Int := count - cells.sum
      if diff > 0 then .ok (addCells r diff.toNat cells)
      else if diff < 0 then removeCells r (-diff).toNat cells
      else .ok cells

/-- Fill in the new last cells, `/repo/src/PhreeqcRM.cpp:8574-8580`. -/
def endsOf : Int → List Int → List Int
  | _, [] => []
  | last, c :: cs => (last + c) :: endsOf (last + c) cs

/-- Largest element, starting from 0, `/repo/src/PhreeqcRM.cpp:8600-8610`. -/
def maxTime (l : List ℚ) : ℚ := l.foldl (fun m t => if t > m then t else m) 0

/-- `PhreeqcRM::RebalanceLoad`, `/repo/src/PhreeqcRM.cpp:8453-8698`, up to the new
ranges, with `rebalance_by_cell` false. -/
def rebalanceLoad (count : Nat) (rs : List (Int × Int)) (t : List ℚ) (f : ℚ) :
    Out (List (Int × Int)) :=
  let nthreads := rs.length
  if nthreads ≤ 1 then .ok rs
  else if f ≤ 0 then .ok rs
  else if nthreads > count then .ok rs
  else do
    let r := perCellTimes t rs
    let cells ← newCells count r
    let ends := endsOf (-1) cells
    if ends.getLast? ≠ some ((count : Int) - 1) then .throw
    else
      let maxNew := maxTime ((cells.zip r).map (fun p => p.1 * p.2))
      let maxOld := maxTime ((rs.zip r).map (fun p => (p.1.2 - p.1.1 + 1 : Int) * p.2))
      if (maxOld - maxNew) / maxOld < 5 / 100 then .ok rs
      else .ok (fromEnds 0 (blendEnds (shiftThread f) (rs.map Prod.snd) ends))

/-! ## By cell -/

/-- `temp_sum_work += normalized_cell_times[j] / normalized_total_time`,
`/repo/src/PhreeqcRM.cpp:9507`; `none` is NaN (0/0 when no time was measured). -/
def addShare (sum : Option ℚ) (t total : ℚ) : Option ℚ :=
  if total = 0 then none else sum.map (· + t / total)

/-- Comparison of doubles: any comparison with NaN is false. -/
def ltNaN (x : Option ℚ) (y : ℚ) : Bool :=
  match x with
  | none => false
  | some v => decide (v < y)

/-- The inner `while (next)` loop for worker `i`, `/repo/src/PhreeqcRM.cpp:9503-9531`:
returns the last cell of the worker and the next `j`. The list argument holds the cell
times from index `j` on; reading past the end of the vector is undefined behaviour. -/
def scan (count nth i : Nat) (total : ℚ) (start : Int) :
    List ℚ → Nat → Option ℚ → Out (Int × Nat)
  | [], _, _ => .ub
  | t :: ts, j, sum =>
    let sum' := addShare sum t total
    if ltNaN sum' (1 / nth) = true ∧ (count : Int) - j > (nth : Int) - i then
      scan count nth i total start ts (j + 1) sum'
    else if (j : Int) = start then .ok ((j : Int), j + 1)
    else .ok ((j : Int) - 1, j)

/-- The loop over workers `i < nthreads - 1` and the last worker,
`/repo/src/PhreeqcRM.cpp:9495-9536`. `k` counts the workers left before the last one. -/
def splitWork (count nth : Nat) (times : List ℚ) (total : ℚ) :
    Nat → Nat → Int → Nat → Out (List (Int × Int))
  | 0, _, start, _ => .ok [(start, (count : Int) - 1)]
  | k + 1, i, start, j => do
    let (e, j') ← scan count nth i total start (times.drop j) j (some 0)
    let rest ← splitWork count nth times total k (i + 1) (e + 1) j'
    pure ((start, e) :: rest)

/-- Task times: sums of the cell times over each range, `/repo/src/PhreeqcRM.cpp:9465-9478`.
`none` when a range reaches outside the vector of times. -/
def taskTimes (times : List ℚ) (rs : List (Int × Int)) : List ℚ :=
  rs.map (fun r => ((times.drop r.1.toNat).take (r.2 - r.1 + 1).toNat).sum)

/-- Parallel efficiency, `/repo/src/PhreeqcRM.cpp:9480-9485`; NaN if the longest task time
is zero. -/
def efficiency (tt : List ℚ) : Option ℚ :=
  let m := maxTime tt
  if m = 0 then none else some ((tt.map (fun x => x / m * (1 / tt.length))).sum)

/-- `efficiency > 0.95`, `/repo/src/PhreeqcRM.cpp:9538`. -/
def gtNaN (x : Option ℚ) (y : ℚ) : Bool :=
  match x with
  | none => false
  | some v => decide (v > y)

/-- `PhreeqcRM::RebalanceLoadPerCell`, `/repo/src/PhreeqcRM.cpp:9416-9566`, up to the new
ranges. `times` is the concatenation of the cell times of all workers. Called only when
`rebalance_fraction > 0` (8458). Simplification: `standard_time` is 1 for every worker,
as in the code (9435), and cell times are not negative. -/
def rebalancePerCell (count : Nat) (rs : List (Int × Int)) (times : List ℚ) (f : ℚ) :
    Out (List (Int × Int)) :=
  let nth := rs.length
  if nth ≤ 1 then .ok rs
  else if f ≤ 0 then .ok rs
  else if nth > count then .ok rs
  else do
    let tt := taskTimes times rs
    let new ← splitWork count nth times tt.sum (nth - 1) 0 0 0
    if gtNaN (efficiency tt) (95 / 100) then pure rs
    else pure (fromEnds 0 (blendEnds (shiftCell f) (rs.map Prod.snd) (new.map Prod.snd)))

end Verif.Rebalance
