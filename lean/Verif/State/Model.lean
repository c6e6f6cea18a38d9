import Verif.Store.Model
import Verif.OMap.Basic
import Mathlib.Algebra.Order.Field.Rat

/-!
# Saved states

Model of `StateSave`, `StateApply` and `StateDelete`, `/repo/src/PhreeqcRM.cpp:12753-12846`,
in the build without MPI. The workers run one after another; each touches only itself.

An entity carries its own number (`nUser`), which is what `phreeqc2cxxStorageBin` uses as key.
`Set_n_user_both` also overwrites the end of a number range; the end is not modelled.
-/

namespace Verif.State

open Verif.Store Verif.OMap

/-- An entity with the number stored in it (`Get_n_user()`). -/
structure Ent (α : Type) where
  nUser : Int
  val   : α
  deriving DecidableEq

/-- The eleven maps of a phreeqc instance or of a `cxxStorageBin`. -/
abbrev Maps (α : Type) := Kind → SMap Int (Ent α)

/-- `struct State` (`/repo/src/IPhreeqcPhast/IPhreeqcPhast.h`). -/
structure Saved (α : Type) where
  bin    : Maps α                 -- worker_bin
  uz     : Maps α                 -- uz_bin
  ranges : List (Int × Int)       -- start_cell, end_cell of all workers

/-- One worker: its reactants, its unsaturated-zone bin, its own copy of its range and its
saved states. -/
structure Worker (α : Type) where
  rx     : Maps α
  uz     : Maps α
  range  : Int × Int
  states : SMap Int (Saved α)     -- state_map

/-- The module: `start_cell`, `end_cell` and the cell workers. -/
structure SState (α : Type) where
  ranges  : List (Int × Int)
  workers : List (Worker α)

/-- Kinds saved by `phreeqc2cxxStorageBin(sb)`,
`/repo/src/IPhreeqcPhast/IPhreeqc/phreeqcpp/structures.cpp:3016-3115`. -/
def savedKinds : List Kind :=
  [.solution, .exchange, .gasPhase, .kinetics, .ppAssemblage, .ssAssemblage, .surface, .mix,
    .reaction, .temperature, .pressure]

/-- The loop over one map, structures.cpp:3024-3031: stored under the number held by the
entity. -/
def saveMap {α : Type} (m : SMap Int (Ent α)) : SMap Int (Ent α) :=
  m.foldl (fun b p => insert b p.2.nUser p.2) []

/-- `phreeqc2cxxStorageBin(sb)` into a fresh bin, structures.cpp:3016-3115. -/
def toBin {α : Type} (rx : Maps α) : Maps α := fun k => if k ∈ savedKinds then saveMap (rx k) else []

/-- Body of the loop of `StateSave`, `/repo/src/PhreeqcRM.cpp:12769-12778`. -/
def saveWorker {α : Type} (ranges : List (Int × Int)) (id : Int) (w : Worker α) : Worker α :=
  { w with states := insert w.states id ⟨toBin w.rx, w.uz, ranges⟩ }

/-- `StateSave`, `/repo/src/PhreeqcRM.cpp:12753-12780`. -/
def stateSave {α : Type} (s : SState α) (id : Int) : Out (IRM × SState α) :=
  .ok (.ok, { s with workers := s.workers.map (saveWorker s.ranges id) })

/-- Kinds restored by `StateApply`, `/repo/src/PhreeqcRM.cpp:12805-12815`. -/
def appliedKinds : List Kind :=
  [.solution, .exchange, .gasPhase, .kinetics, .ppAssemblage, .ssAssemblage, .surface, .mix,
    .reaction, .temperature, .pressure]

/-- Body of the loop of `StateApply`, `/repo/src/PhreeqcRM.cpp:12802-12819`. In a worker without
this id `state_map[istate]` makes an empty state and `start_cell[i]` reads outside it. -/
def applyWorker {α : Type} (id : Int) (p : Worker α × Nat) : Out (Worker α) :=
  match find p.1.states id with
  | none => .ub
  | some st =>
    match st.ranges[p.2]? with
    | none => .ub
    | some r =>
      .ok { p.1 with
            rx := fun k => if k ∈ appliedKinds then st.bin k else p.1.rx k
            uz := st.uz
            range := r }

/-- `StateApply`, `/repo/src/PhreeqcRM.cpp:12781-12822`; the id is looked up in worker 0. -/
def stateApply {α : Type} (s : SState α) (id : Int) : Out (IRM × SState α) :=
  match s.workers with
  | [] => .ub
  | w :: _ =>
    match find w.states id with
    | none => .ok (.invalidArg, s)
    | some st => do
      let ws ← s.workers.zipIdx.mapM (applyWorker id)
      .ok (.ok, { ranges := st.ranges, workers := ws })

/-- `StateDelete`, `/repo/src/PhreeqcRM.cpp:12823-12846`. -/
def stateDelete {α : Type} (s : SState α) (id : Int) : Out (IRM × SState α) :=
  match s.workers with
  | [] => .ub
  | w :: _ =>
    match find w.states id with
    | none => .ok (.invalidArg, s)
    | some _ =>
      .ok (.ok, { s with workers := s.workers.map (fun w => { w with states := erase w.states id }) })

end Verif.State
