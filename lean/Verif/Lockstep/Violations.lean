import Verif.Lockstep.Props
import Verif.Lockstep.SchedBuf

/-!
# What does not hold in the MPI build

Executions of two processes with the engine and the data of `Demo`, which satisfy `Works`, `Ready` and
`Pieces`.
-/

namespace Verif.Lockstep

open Spec

variable {n : Nat} {χ : Type} {E : Engine χ}

/-- **C133 does not hold for vectors that are too short.** `SetPrintChemistryMask` with a vector of one
element for three cells: the root reports `IRM_INVALIDARG` and makes its next call, the worker waits in
`MPI_Scatterv` (`/repo/src/PhreeqcRM.cpp:12051-12064`). No process can go on, and none has ended. -/
theorem mask_short_hangs : ∃ m D, Exec (pact Demo.E 2) 2 m (start Demo.E 2 [.setMask [1]] Demo.s0) D ∧
    Halted Demo.E 2 D ∧ ∀ p < 2, ¬ ∃ x, Left D p x := by
  obtain ⟨D, h1, h2⟩ := after_sound (act := pact Demo.E 2) (n := 2) (k := 1)
    (C := start Demo.E 2 [.setMask [1]] Demo.s0)
    (f := fun D => (List.range 2).all (fun p => (pact Demo.E 2 p (D.ps p)).isColl) &&
      (meet 2 (fun p => (pact Demo.E 2 p (D.ps p)).coll?)).isNone) (by decide +kernel)
  obtain ⟨h2, h3⟩ := Bool.and_eq_true_iff.1 h2
  refine ⟨1, D, h1, stuck_of_mismatch (by decide) h2 h3, ?_⟩
  rintro p hp ⟨x, hx⟩
  have := List.all_eq_true.1 h2 p (List.mem_range.2 hp)
  rcases hx with ⟨rs, hx⟩ | hx
  · rw [hx] at this; cases this
  · rw [hx] at this; cases this

/-- **C135 does not hold with `StateApply`.** The state is saved, the cells are run and rebalanced, the
state is applied: the second process has its one cell back, but the values of two cells, the first of
which belongs to another cell (`/repo/src/PhreeqcRM.cpp:12781-12819`). -/
theorem apply_loses_cells : ∃ D, Exec (pact Demo.E 2) 2 23
    (start Demo.E 2 [.stateSave 1, .runCells, .stateApply 1] Demo.s0) D ∧ Halted Demo.E 2 D ∧
    ∃ x, Left D 1 x ∧ x.sh.cells = [2, 1] ∧
      ¬ PieceOf (Demo.s0 0).sh.back x.sh.cells 1 ((Demo.s0 0).rootArr .porosity) (x.workArr .porosity) := by
  obtain ⟨D, h1, h2⟩ := after_sound (act := pact Demo.E 2) (n := 2) (k := 23)
    (C := start Demo.E 2 [.stateSave 1, .runCells, .stateApply 1] Demo.s0)
    (f := fun D => leftTest (fun x => x.workArr .porosity = [2, 3] ∧ x.sh.cells = [2, 1]) (D.ps 1) &&
      leftTest (fun _ => true) (D.ps 0)) (by decide +kernel)
  obtain ⟨h2, h3⟩ := Bool.and_eq_true_iff.1 h2
  obtain ⟨x, h4, h5⟩ := leftTest_sound h2
  obtain ⟨y, h6, _⟩ := leftTest_sound h3
  have h5 := of_decide_eq_true h5
  refine ⟨D, h1, ?_, x, h4, h5.2, ?_⟩
  · intro a D' hst
    have hdone : ∀ p < 2, pact Demo.E 2 p (D.ps p) = .done := by
      intro p hp
      have : p = 0 ∨ p = 1 := by omega
      rcases this with rfl | rfl
      · rcases h6 with ⟨_, h6⟩ | h6 <;> rw [h6] <;> rfl
      · rcases h4 with ⟨_, h4⟩ | h4 <;> rw [h4] <;> rfl
    cases hst with
    | coll cs ks rs h hm => have := h 0 (by decide); rw [hdone 0 (by decide)] at this; cases this
    | push hp hq h => rw [hdone _ hp] at h; cases h
    | pop hp hq h => rw [hdone _ hq] at h; cases h
    | rdv hp hq h => rw [hdone _ hp] at h; cases h
  · rw [h5.1, h5.2]
    intro hp
    have := hp.1
    cases this

/-- **C136 does not hold for InitialPhreeqc and Utility.** With an input on which these instances fail
in all processes, `LoadDatabase`, `RunString` and `RunFile` return `IRM_OK`: `HandleErrorsInternal`
gathers `r_vector[0]` only (`/repo/src/PhreeqcRM.cpp:5412`). -/
theorem initial_failure_unseen : (∀ c, (Demo.E.load ['x'] c).2.2.1 ≠ 0) ∧
    (∀ i c, i ≠ 0 → (Demo.E.runString i ['x'] c).2 ≠ 0) ∧
    (∀ i c, i ≠ 0 → (Demo.E.runFile i ['x'] c).2 ≠ 0) ∧
    ∃ m D, Exec (pact Demo.E 2) 2 m (start Demo.E 2 [.loadDatabase ['x'],
      .runString true true true ['x'], .runFile true true true ['x']] Demo.s0) D ∧
      ∃ x, D.ps 0 = .root (.ret ([.ok .ok, .ok .ok, .ok .ok], x)) := by
  refine ⟨fun c => by simp [Demo.E], fun i c h => by simp [Demo.E, h], fun i c h => by simp [Demo.E, h], 20, ?_⟩
  obtain ⟨D, h1, h2⟩ := after_sound (act := pact Demo.E 2) (n := 2) (k := 20)
    (C := start Demo.E 2 [.loadDatabase ['x'],
      .runString true true true ['x'], .runFile true true true ['x']] Demo.s0)
    (f := fun D => match D.ps 0 with
      | .root (.ret (rs, _)) => decide (rs = [.ok .ok, .ok .ok, .ok .ok])
      | _ => false) (by decide +kernel)
  refine ⟨D, h1, ?_⟩
  split at h2
  · rename_i rs x hx
    exact ⟨x, by rw [hx, of_decide_eq_true h2]⟩
  · cases h2

/-- **C133 does not hold if a transfer fails.** The second process cannot read the cells that it
receives (an exception in `Deserialize`, caught at `/repo/src/PhreeqcRM.cpp:8004-8007, 8988-8991`): it throws and
is back in `MpiWorker`, while the root waits for it in `ScatterNchem` (`:8057-8060, 9042-9045`, where
the common error handling is commented out). -/
theorem transfer_failure_hangs : ∃ m D,
    Exec (pact { Demo.E with unpack := fun _ _ => none } 2) 2 m
      (start { Demo.E with unpack := fun _ _ => none } 2 [.runCells] Demo.s0) D ∧
    Halted { Demo.E with unpack := fun _ _ => none } 2 D ∧ ∀ p < 2, ¬ ∃ x, Left D p x := by
  obtain ⟨D, h1, h2⟩ := after_sound (act := pact { Demo.E with unpack := fun _ _ => none } 2) (n := 2) (k := 10)
    (C := start { Demo.E with unpack := fun _ _ => none } 2 [.runCells] Demo.s0)
    (f := fun D => (List.range 2).all (fun p => (pact { Demo.E with unpack := fun _ _ => none } 2 p (D.ps p)).isColl) &&
      (meet 2 (fun p => (pact { Demo.E with unpack := fun _ _ => none } 2 p (D.ps p)).coll?)).isNone)
    (by decide +kernel)
  obtain ⟨h2, h3⟩ := Bool.and_eq_true_iff.1 h2
  refine ⟨10, D, h1, stuck_of_mismatch (by decide) h2 h3, ?_⟩
  rintro p hp ⟨x, hx⟩
  have := List.all_eq_true.1 h2 p (List.mem_range.2 hp)
  rcases hx with ⟨rs, hx⟩ | hx
  · rw [hx] at this; cases this
  · rw [hx] at this; cases this

/-- **C133 does not hold for other communicators.** The communicator given to PhreeqcRM has the two
processes of `MPI_COMM_WORLD` in the other order. Cells are sent with ranks of the former in the latter
(`/repo/src/PhreeqcRM.cpp:7969-7987, 8953-8971`): the first process sends to itself, the second waits for
a message from itself. -/
theorem other_communicator_hangs : ∃ m D,
    Exec (pact { Demo.E with world := fun p => 1 - p } 2) 2 m
      (start { Demo.E with world := fun p => 1 - p } 2 [.runCells] Demo.s0) D ∧
    Halted { Demo.E with world := fun p => 1 - p } 2 D ∧ ∀ p < 2, ¬ ∃ x, Left D p x := by
  obtain ⟨D, h1, h2⟩ := afterBuf_sound (act := pact { Demo.E with world := fun p => 1 - p } 2) (n := 2) (k := 11)
    (C := start { Demo.E with world := fun p => 1 - p } 2 [.runCells] Demo.s0)
    (f := fun D => ((List.range 2).all (starves (pact { Demo.E with world := fun p => 1 - p } 2) D) &&
      (List.range 2).any (fun p => !(pact { Demo.E with world := fun p => 1 - p } 2 p (D.ps p)).isColl)) &&
      (List.range 2).all (fun p => !leftTest (fun _ => true) (D.ps p)))
    (by decide +kernel)
  obtain ⟨h2, h4⟩ := Bool.and_eq_true_iff.1 h2
  obtain ⟨h2, h3⟩ := Bool.and_eq_true_iff.1 h2
  refine ⟨11, D, h1, stuck_of_starving h2 h3, ?_⟩
  rintro p hp ⟨x, hx⟩
  have := List.all_eq_true.1 h4 p (List.mem_range.2 hp)
  rcases hx with ⟨rs, hx⟩ | hx
  · rw [hx] at this; cases this
  · rw [hx] at this; cases this

end Verif.Lockstep
