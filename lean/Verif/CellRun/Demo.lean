import Verif.CellRun.Props

/-!
# `RUN_CELLS`: concrete cases and what goes wrong

A toy chemistry on whole numbers: the water gains the amount of the reaction times the
step and one for kinetic reactants, a calculation whose water exceeds 50 fails, and every
other reactant gains one.  A mix names the solution of its own number.
-/

namespace Verif.CellRun

/-- The water of the toy chemistry. -/
def toyWater : Source Int → Int
  | .one d => d
  | .mixed _ l => (l.map fun o => o.elim 0 id).sum

/-- The toy chemistry. -/
def toy : Engine Int where
  react := fun i =>
    let w := toyWater i.source + (i.part .reaction).elim 0 (fun r => r * i.step) +
      (i.part .kinetics).elim 0 (fun _ => 1)
    if 50 < w then none
    else some { sol := w, x := fun k => (i.part k).elim 0 (· + 1), slot1 := fun _ => none,
                slot2 := fun k => if k = .kinetics then (i.part k).map (· - 1) else none }
  named := fun d => [d]
  count := fun k d => if k = .reaction then d.toNat else 1
  current := fun _ _ _ => 7

/-- Cell 1: solution 5, exchanger 2, reaction 3 (three steps); cell 2: a mix of solution 1;
cell 3: solution 49 and reaction 9, which fails; cell 4: solution 8 and kinetics 20;
cell 5: solution 6. -/
def toyMaps : Maps Int := fun k n =>
  match k, n with
  | .solution, 1 => some 5
  | .exchange, 1 => some 2
  | .reaction, 1 => some 3
  | .mix, 2 => some 1
  | .solution, 3 => some 49
  | .reaction, 3 => some 9
  | .solution, 4 => some 8
  | .kinetics, 4 => some 20
  | .solution, 5 => some 6
  | _, _ => none

/-- An instance with leftovers of earlier work. -/
def toySt (b : Bool) : St Int where
  maps := fun k n => if n = -2 then (if b then some 77 else none) else toyMaps k n
  use := ⟨fun _ => b, fun _ => 9⟩
  save := ⟨fun _ => b, fun _ => 9, fun _ => 12⟩
  x := none
  time := 100
  simStart := 3
  sim := if b then 11 else 4
  rows := []
  defined := true
  running := false

def opts (incr one : Bool) : Opts := ⟨incr, one, none, some 10⟩

/-- The entities of interest after a run. -/
def look (ks : List (Kind × Int)) : Res Int → Option (Bool × List (Option Int))
  | .ok s => some (true, ks.map fun p => s.maps p.1 p.2)
  | .stop s => some (false, ks.map fun p => s.maps p.1 p.2)
  | .ub => none

/-- The rows of a run. -/
def rowsOf : Res Int → List (Int × Nat × Int)
  | .ok s | .stop s => s.rows.map fun r => (r.cell, r.step, r.out.sol)
  | .ub => []

/-- The time after a run. -/
def timeOf : Res Int → Option ℚ
  | .ok s | .stop s => some s.time
  | .ub => none

/-- The hypotheses of the theorems hold in the toy instance. -/
theorem toy_called (l : List Int) (h : l ≠ []) (b : Bool) : Called l (toySt b) := ⟨h, rfl⟩

theorem toy_clean (b : Bool) (i : Int) (h : 0 ≤ i) : Clean toy (toySt b).maps i := by
  intro d hd n hn
  simp only [toy, List.mem_singleton] at hn
  subst hn
  simp only [toySt] at hd
  rw [if_neg (by omega)] at hd
  unfold toyMaps at hd
  split at hd <;> first | (cases hd; decide) | exact absurd hd (by simp) | simp_all

/-- Beside `run_cells_refines`, `run_cells_repeatable`, `only_named_cells`: the run of the
cells 1 and 4 with two different sets of leftovers. -/
example (b : Bool) : look [(.solution, 1), (.exchange, 1), (.reaction, 1), (.solution, 4),
      (.kinetics, 4), (.solution, 2), (.solution, 3)]
      (runAsCells toy (opts false false) [1, 4] (toySt b)) =
    some (true, [some 14, some 3, some 3, some 9, some 19, none, some 49]) := by
  cases b <;> decide +kernel

/-- Beside `last_step_alone`: with steps that follow one another the water gains 3, 6 and
9; with steps from the given cell only the last counts.  Beside `one_row_per_step`: the
rows. -/
example : rowsOf (runAsCells toy (opts false false) [1, 4] (toySt true)) =
      [(1, 1, 8), (1, 2, 11), (1, 3, 14), (4, 1, 9)] ∧
    rowsOf (runAsCells toy (opts true false) [1, 4] (toySt true)) =
      [(1, 1, 8), (1, 2, 14), (1, 3, 23), (4, 1, 9)] := by decide +kernel

/-- Beside `one_step_modes_agree`. -/
example : rowsOf (runAsCells toy (opts false true) [1, 4] (toySt true)) =
      [(1, 1, 8), (4, 1, 9)] ∧
    rowsOf (runAsCells toy (opts true true) [1, 4] (toySt true)) =
      [(1, 1, 8), (4, 1, 9)] := by decide +kernel

/-- **C164 as a user would have it is false.** The same `RUN_CELLS` makes three steps in an
instance that never took part in `RunCells` of the reaction module and one step after it
did: `run_cells_one_step` is set there (`PhreeqcRM.cpp:9720`, `9873`) and never reset. -/
theorem steps_depend_on_history_violation :
    look [(.solution, 1)] (runAsCells toy (opts false false) [1] (toySt false)) ≠
    look [(.solution, 1)] (runAsCells toy (opts false true) [1] (toySt false)) := by
  decide +kernel

/-- **C162 in full is false.** Cell 2 is a mix of solution 1.  Run together with cell 1 it
mixes the solution that cell 1 has after its own reactions; run by itself, from the same
entities, it mixes the solution as it was. -/
theorem mix_sees_treated_violation :
    look [(.solution, 2)] (runAsCells toy (opts false false) [1, 2] (toySt false)) =
      some (true, [some 14]) ∧
    look [(.solution, 2)] (runAsCells toy (opts false false) [2] (toySt false)) =
      some (true, [some 5]) := by decide +kernel

/-- Beside `cells_on_their_own_partial` and `order_irrelevant_partial`: the cells 4 and 2,
whose mixes name no listed cell. -/
example : look [(.solution, 2), (.solution, 4)]
      (runAsCells toy (opts false false) [4, 2] (toySt false)) =
    look [(.solution, 2), (.solution, 4)]
      (runAsCells toy (opts false false) [2, 4] (toySt false)) ∧
    [4, 2].Nodup ∧ (∀ i ∈ [(4 : Int), 2], ∀ d, (toySt false).maps .mix i = some d →
      ∀ n ∈ toy.named d, n ∉ [(4 : Int), 2]) := by
  refine ⟨by decide +kernel, by decide, ?_⟩
  intro i hi d hd n hn
  simp only [toy, List.mem_singleton] at hn
  subst hn
  simp only [List.mem_cons, List.not_mem_nil, or_false] at hi
  rcases hi with rfl | rfl
  · exact absurd (show (toySt false).maps .mix 4 = none from rfl) (by rw [hd]; simp)
  · rw [show (toySt false).maps .mix 2 = some 1 from rfl] at hd
    cases hd; decide

/-- Beside `calls_may_be_split`: the cells 1 and 2 in one call and in two, with a mix of a
listed cell. -/
example : look [(.solution, 1), (.solution, 2)]
      (runAsCells toy ⟨false, false, some 30, some 10⟩ [1, 2] (toySt true)) =
        some (true, [some 14, some 14]) ∧
    look [(.solution, 1), (.solution, 2)]
      (match runAsCells toy ⟨false, false, some 30, some 10⟩ [1] (toySt true) with
        | .ok s => runAsCells toy ⟨false, false, some 30, some 10⟩ [2] { s with defined := true }
        | r => r) = some (true, [some 14, some 14]) := by decide +kernel

/-- Beside `time_advances_partial`. -/
example : timeOf (runAsCells toy (opts false false) [1, 4] (toySt true)) = some 110 ∧
    timeOf (runAsCells toy (opts true false) [4, 6] (toySt true)) = some 110 := by
  decide +kernel

/-- **C165 in full is false.** With a time step of 10 and the same two kinds of cells, the
time does not advance when the cell with the higher number has no kinetic reactants; and
when no listed cell exists, the time that some earlier calculation took is added. -/
theorem time_advances_violation :
    timeOf (runAsCells toy (opts false false) [4, 5] (toySt true)) = some 100 ∧
    timeOf (runAsCells toy (opts false false) [6] (toySt true)) = some 111 := by
  decide +kernel

/-- Beside the failing half of `run_cells_refines`, `failed_still_defined`: cell 3 fails,
cell 1 before it is done, cell 4 after it is as it was. -/
example : look [(.solution, 1), (.solution, 3), (.solution, 4), (.kinetics, 4)]
      (runAsCells toy (opts false false) [1, 3, 4] (toySt true)) =
    some (false, [some 14, some 49, some 8, some 20]) := by decide +kernel

/-- The next calculation after a run, with no `RUN_CELLS` in its input. -/
def nextCall (O : Opts) (cells : List Int) : Res Int → Res Int
  | .ok s | .stop s => runAsCells toy O cells s
  | .ub => .ub

/-- **C166 in full is false.** Cell 3 fails and the run stops; cell 1 has been treated.  The
next calculation of the instance has no `RUN_CELLS`, and treats cell 1 a second time. -/
theorem failed_runs_again_violation :
    look [(.solution, 1), (.exchange, 1)]
      (nextCall (opts false false) [1, 3] (runAsCells toy (opts false false) [1, 3] (toySt true))) =
    some (false, [some 23, some 4]) := by decide +kernel

/-- Beside `finished_not_again`. -/
example : look [(.solution, 1), (.exchange, 1)]
      (nextCall (opts false false) [1, 4] (runAsCells toy (opts false false) [1, 4] (toySt true))) =
    some (true, [some 14, some 3]) := by decide +kernel

end Verif.CellRun
