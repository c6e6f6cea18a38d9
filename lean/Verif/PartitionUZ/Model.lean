import Verif.Store.Model
import Mathlib.Algebra.Order.Field.Rat
import Mathlib.Algebra.Order.Ring.Abs

/-!
# Partitioning of solids between the saturated and the unsaturated zone

Model of `PhreeqcRM::PartitionUZ`, `/repo/src/PhreeqcRM.cpp:7542-7692` (without MPI), and
of its use in `RunCellsThread` (10204-10230) and `RunCells` (9883-9886), for one cell.

The mixing of two entities of one kind is a parameter `mix a b f g`: the entity made of
`f` parts of `a` (storage number 0) and `g` parts of `b` (storage number 1, absent if the
unsaturated zone has no such entity). `Verif.Mixing` models the mixing of the single kinds.
-/

namespace Verif.PartitionUZ

open Verif.Store

/-- Result of dividing doubles: `none` for a zero divisor. -/
def divD (a b : ℚ) : Option ℚ := if b = 0 then none else some (a / b)

/-- The four mixing fractions `s1, s2, uz1, uz2`. -/
structure Fractions where
  s1 : ℚ
  s2 : ℚ
  uz1 : ℚ
  uz2 : ℚ
  deriving DecidableEq, Repr

/-- Choice of the fractions, `/repo/src/PhreeqcRM.cpp:7565-7597`; `none` if the code
divides by zero. -/
def fractions (old new : ℚ) : Option Fractions :=
  if new ≥ 1 then some ⟨1, 1, 0, 0⟩
  else if new ≤ 1 / 1000000 then some ⟨0, 0, 1, 1⟩
  else if new > old then
    (divD (1 - new) (1 - old)).map (fun uz2 => ⟨1, 1 - uz2, 0, uz2⟩)
  else
    (divD new old).map (fun s1 => ⟨s1, 0, 1 - s1, 1⟩)

/-- One cell: reactants in the saturated zone (in the worker), in the unsaturated zone
(in `uz_bin`), and `old_saturation_root` of its first grid cell. -/
structure UZCell (E : Type) where
  sz : Kind → Option E
  uz : Kind → Option E
  old : ℚ

/-- Kinds that are split, `/repo/src/PhreeqcRM.cpp:7611-7675`. -/
def uzKinds : List Kind :=
  [.exchange, .ppAssemblage, .gasPhase, .ssAssemblage, .kinetics, .surface]

/-- The block for one kind, e.g. `/repo/src/PhreeqcRM.cpp:7612-7620`. -/
def splitKind {E : Type} (mix : Kind → E → Option E → ℚ → ℚ → E) (f : Fractions)
    (c : UZCell E) (k : Kind) : UZCell E :=
  match c.sz k with
  | none => c
  | some a =>
    let newsz := mix k a (c.uz k) f.s1 f.s2
    let newuz := mix k a (c.uz k) f.uz1 f.uz2
    { c with sz := fun k' => if k' = k then some newsz else c.sz k'
             uz := fun k' => if k' = k then some newuz else c.uz k' }

/-- `PhreeqcRM::PartitionUZ`, `/repo/src/PhreeqcRM.cpp:7542-7692`; `.ub` stands for a
division by zero. -/
def partitionUZ {E : Type} (mix : Kind → E → Option E → ℚ → ℚ → E) (c : UZCell E) (new : ℚ) :
    Out (UZCell E) :=
  if |c.old - new| < 1 / 100000000 then .ok c
  else match fractions c.old new with
    | none => .ub
    | some f =>
      let c1 := uzKinds.foldl (splitKind mix f) c
      let uz2 := if new ≥ 1 then (fun _ => none) else c1.uz
      .ok { sz := c1.sz, uz := uz2, old := new }

/-- What `RunCells` does to this cell with partitioning on: partition, react (`react`
changes the saturated-zone reactants), then `old_saturation_root = saturation_root`
(`/repo/src/PhreeqcRM.cpp:9896-9899`). -/
def runCell {E : Type} (mix : Kind → E → Option E → ℚ → ℚ → E)
    (react : (Kind → Option E) → (Kind → Option E)) (c : UZCell E) (sat : ℚ) : Out (UZCell E) := do
  let c1 ← partitionUZ mix c sat
  pure { sz := react c1.sz, uz := c1.uz, old := sat }

end Verif.PartitionUZ
