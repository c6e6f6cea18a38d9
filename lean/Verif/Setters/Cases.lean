import Verif.Setters.Props
import Verif.Gas.Cases

/-! # Concrete cases for the setters, and the refused calls that change settings -/

namespace Verif.Setters

open Verif.Mapping Verif.Grid Verif.Ranges Verif.Getters Verif.Mixing
open Verif.Gas (caseGrid caseMap caseMap_consistent)

/-- The state after `SetErrorHandlerMode(1)`. -/
def mode1 : RM := { initial true caseMap with mode := 1 }

theorem mode1_runs : Runs (initial true caseMap) [.errorMode 1] mode1 :=
  Runs.nil.snoc (s' := mode1) (r := .value .ok) rfl (by simp)

/-- C84 fails: in mode 1, `SetErrorHandlerMode(7)` is refused and puts mode 0 in force. -/
theorem refused_unchanged_violated : ¬ RefusedUnchanged := by
  intro hall
  have h := hall caseGrid true caseMap [.errorMode 1] mode1
    (setErrorHandlerMode mode1 7).1 (.errorMode 7) (setErrorHandlerMode mode1 7).2
    caseMap_consistent rfl mode1_runs rfl (by simp [Good])
  have e : (setErrorHandlerMode mode1 7).1.mode = mode1.mode := by
    rw [h]
  exact absurd e (by decide)

/-- The two other refused calls that change something: an empty prefix is stored, and an empty
dump name is replaced by the prefix with `.dmp`. -/
theorem refused_names_change :
    (setFilePrefix (initial false caseMap) "").2 = .value .invalidArg ∧
    (setFilePrefix (initial false caseMap) "").1.prefx = "" ∧
    (setDumpFileName (initial false caseMap) "").2 = .value .invalidArg ∧
    (setDumpFileName (initial false caseMap) "").1.dump = "myrun.dmp" := by
  decide +kernel

/-- `handler_modes` in mode 1: a porosity vector of length 2 on four grid cells throws, one of
length 5 is accepted. -/
theorem handler_case :
    (∃ s' r, exec mode1 (.grid .porosity [1, 1]) = .ok (s', r) ∧ r = .threw) ∧
    (∃ s' r, exec mode1 (.grid .porosity [1, 1, 1, 1, 1]) = .ok (s', r) ∧ r = .value .ok) := by
  constructor
  · obtain ⟨s', r, h1, _, h3⟩ := handler_modes caseMap_consistent rfl mode1_runs
      (.grid .porosity [1, 1])
    exact ⟨s', r, h1, ((h3 (by simp [Good, caseMap])).1 (by simp)).2.1 rfl⟩
  · obtain ⟨s', r, h1, h2, _⟩ := handler_modes caseMap_consistent rfl mode1_runs
      (.grid .porosity [1, 1, 1, 1, 1])
    exact ⟨s', r, h1, h2.mp (by simp [Good, caseMap])⟩

/-- Mode 2: the process ends with the code. -/
theorem handler_exit_case :
    ∃ s', exec { initial false caseMap with mode := 2 } (.units .solution 0) =
      .ok (s', .exited (-3)) :=
  ⟨_, rfl⟩

/-- Solutions and gas phases of the two reaction cells. -/
def caseSol : Nat → Int → Option Soln := fun n j =>
  if n = 0 ∧ (j = 0 ∨ j = 1) then some ⟨1, 1, 1, 25, 1, []⟩ else none

theorem caseSol_all : ∀ n j, Owns caseMap.ranges n j → ∃ x, caseSol n j = some x := by
  rintro n j ⟨r, hr, h1, h2⟩
  match n with
  | 0 =>
    simp [caseMap] at hr; subst hr
    simp only at h1 h2
    exact ⟨_, if_pos ⟨rfl, by omega⟩⟩
  | n + 1 => simp [caseMap] at hr

/-- `pressure_round_trip` on the case grid: cells 0 and 1 share a reaction cell, so both read the
pressure given for cell 0; the inactive cell 2 reads its own. -/
theorem pressure_case :
    ∃ s' c, setGrid { initial false caseMap with sol := caseSol } .pressure [2, 3, 4, 5] =
        .ok (s', .value .ok) ∧
      getPressure ⟨s'.map, [], [], s'.sol⟩ (s'.arr .pressure) = .ok c ∧ c.length = 4 ∧
      c[0]? = some 2 ∧ c[1]? = some 2 ∧ c[2]? = some 4 ∧ c[3]? = some 5 := by
  obtain ⟨s', c, h1, h2, h3, h4⟩ := pressure_round_trip
    (s := { initial false caseMap with sol := caseSol }) caseMap_consistent rfl
    caseSol_all [] [] (v := [2, 3, 4, 5]) (by decide)
  have p0 : Conc.Primary caseGrid 0 0 := ⟨rfl, fun i _ => Nat.zero_le i⟩
  have p1 : Conc.Primary caseGrid 1 3 := ⟨rfl, fun i hi => by
    match i with
    | 0 => simp [caseGrid] at hi
    | 1 => simp [caseGrid] at hi
    | 2 => simp [caseGrid] at hi
    | i + 3 => omega⟩
  exact ⟨s', c, h1, h2, h3, (h4 0 0 rfl).2 0 p0 (by omega), (h4 1 0 rfl).2 0 p0 (by omega),
    (h4 2 (-1) rfl).1 (by omega), (h4 3 1 rfl).2 3 p1 (by omega)⟩

/-- `error_string`: a refused call followed by an accepted one. -/
theorem error_case :
    (setUnits (initial false caseMap) .surface 3).1.err =
      ["ERROR: Invalid argument.", "ERROR: PhreeqcRM::SetUnitsSurface", ""] ∧
    (setUnits (setUnits (initial false caseMap) .surface 3).1 .surface 2).1.err = [] := by
  decide +kernel

/-- `units_defined`: the last acceptable argument counts. -/
theorem units_case : unitAfter .surface [.units .surface 2, .units .exchange 1, .units .surface 3]
    = 2 := by decide

end Verif.Setters
