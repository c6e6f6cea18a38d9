import Verif.Pack.Props

/-!
# Concrete cases for packing
-/

namespace Verif.Pack

open Verif.OMap Verif.Serial

/-- A solution with calcium and chloride, isotopes and species. -/
def exSolution (n : Int) (v : ℚ) : Solution where
  nUser := n
  newDef := false
  patm := 1
  potV := 0
  tc := 25
  ph := 7
  pe := 4
  mu := 1 / 10
  ah2o := 1
  totalH := 111
  totalO := 55
  cb := 0
  massWater := 1
  density := 1
  viscosity := 1
  solnVol := 1
  totalAlkalinity := 0
  totals := [("Ca".toList, 1), ("Cl".toList, 2)]
  masterActivity := [("Ca".toList, -3)]
  speciesGamma := []
  isotopes := [("13C".toList, ⟨13, "C".toList, "13C".toList, 1, -12, 1, true, 1, 1⟩)]
  speciesMap := [(4, 1), (9, 2)]
  logGammaMap := []
  logMolalitiesMap := []
  nUserEnd := n
  description := "spring".toList
  viscos0 := v

/-- A gas phase with one component. -/
def exGas (n : Int) : GasPhase where
  nUser := n
  fixedPressure := true
  totalP := 1
  volume := 2
  comps := [⟨"CO2(g)".toList, 1, 0, 0, 1, 1, 1⟩]
  newDef := false
  solutionEquilibria := false
  nSolution := -999
  temperature := 298
  totalMoles := 1
  vm := 24
  prIn := false
  totals := [("C".toList, 1)]
  nUserEnd := n
  description := []

/-- Cells 3 and 5 hold solutions, cell 5 also a gas phase carrying the number `g` and a
temperature. -/
def exCells (g : Int) : Cells where
  solution n := if n = 3 then some (exSolution 3 1) else if n = 5 then some (exSolution 5 2)
    else none
  exchange _ := none
  gasPhase n := if n = 5 then some (exGas g) else none
  kinetics _ := none
  pp _ := none
  ss _ := none
  surface _ := none
  temperature n := if n = 5 then some ⟨5, [30], 1, false, 5, []⟩ else none
  pressure _ := none

theorem exSolution_good (n : Int) (v : ℚ) : (exSolution n v).Good := by
  refine ⟨⟨?_, ?_⟩, ⟨?_, ?_⟩, ⟨?_, ?_⟩, ⟨?_, ?_⟩, ?_, ?_, ?_⟩
  · show List.Pairwise _ _
    simp only [exSolution, List.pairwise_cons, List.mem_singleton, forall_eq, List.not_mem_nil,
      false_imp_iff, implies_true, List.Pairwise.nil, and_self, and_true]
    decide
  · intro p hp
    simp only [exSolution, List.mem_cons, List.not_mem_nil, or_false] at hp
    rcases hp with rfl | rfl <;> exact ⟨by decide, by decide, by decide, by decide⟩
  · simp [exSolution, Sorted]
  · intro p hp
    simp only [exSolution, List.mem_singleton] at hp
    subst hp; exact ⟨by decide, by decide, by decide, by decide⟩
  · simp [exSolution, Sorted]
  · simp [exSolution]
  · simp [exSolution, Sorted]
  · intro p hp
    simp only [exSolution, List.mem_singleton] at hp
    subst hp
    exact ⟨⟨by decide, by decide, by decide⟩, ⟨by decide, by decide, by decide⟩,
      ⟨by decide, by decide, by decide⟩⟩
  · show List.Pairwise _ _
    simp only [exSolution, List.pairwise_cons, List.mem_singleton, forall_eq, List.not_mem_nil,
      false_imp_iff, implies_true, List.Pairwise.nil, and_self, and_true]
    decide
  · simp [exSolution, Sorted]
  · simp [exSolution, Sorted]

theorem exGas_good (n : Int) : (exGas n).Good := by
  refine ⟨?_, ?_, ?_⟩
  · intro c hc
    simp only [exGas, List.mem_singleton] at hc
    subst hc
    exact ⟨by decide, by decide, by decide⟩
  · simp [exGas, Sorted]
  · intro p hp
    simp only [exGas, List.mem_singleton] at hp
    subst hp; exact ⟨by decide, by decide, by decide, by decide⟩

/-- Both cells can be sent. -/
theorem exCells_ready : ∀ k ∈ ([3, 5] : List Int), (exCells 5).Ready k := by
  intro k hk
  simp only [List.mem_cons, List.not_mem_nil, or_false] at hk
  rcases hk with rfl | rfl
  · refine ⟨?_, ?_, ?_, ?_, ?_, ?_, ?_⟩ <;> intro x hx <;> simp [exCells] at hx
    subst hx
    exact ⟨rfl, exSolution_good 3 1⟩
  · refine ⟨?_, ?_, ?_, ?_, ?_, ?_, ?_⟩ <;> intro x hx <;> simp [exCells] at hx
    · subst hx; exact ⟨rfl, exSolution_good 5 2⟩
    · subst hx; exact ⟨rfl, exGas_good 5⟩

/-- The hypotheses of `cells_arrive_partial` and `move_partial` hold for two cells. -/
example : (∀ k ∈ ([3, 5] : List Int), (exCells 5).Ready k) ∧
    ∃ k ∈ ([3, 5] : List Int), ((exCells 5).solution k).isSome :=
  ⟨exCells_ready, 3, by simp, rfl⟩

/-- C59 as stated is false: cells that can be sent, whose solution arrives changed. -/
theorem packing_not_lossless :
    ∃ (w u u' : Cells) (ks : List Int), (∀ k ∈ ks, w.Ready k) ∧
      receive (packCells w ks) u = .ok u' ∧ ∃ k ∈ ks, u'.solution k ≠ w.solution k := by
  obtain ⟨u', y, h1, h2, h3⟩ := viscos_0_lost (exCells 5) (exCells 5) [3, 5] exCells_ready 5
    (by simp) (exSolution 5 2) rfl
  refine ⟨exCells 5, exCells 5, u', [3, 5], exCells_ready, h1, 5, by simp, ?_⟩
  rw [h2]
  intro e
  have e' : y = exSolution 5 2 := Option.some.inj e
  rw [e'] at h3
  have : (2 : ℚ) = 1 := h3
  exact absurd this (by decide +kernel)

/-- A gas phase with number 1 in cell 5 is lost when the cell moves. -/
theorem gas_phase_lost :
    ∃ (wold wnew wold' wnew' : Cells), (wold.gasPhase 5).isSome ∧
      moveCells [5] wold wnew = .ok (wold', wnew') ∧
      wold'.gasPhase 5 = none ∧ wnew'.gasPhase 5 = none := by
  have hgood : ∀ e ∈ (exCells 1).found false false 5, e.Good := by
    intro e he
    simp [Cells.found, exCells] at he
    rcases he with rfl | rfl
    · exact exSolution_good 5 2
    · exact exGas_good 1
  obtain ⟨a, b, h1, h2, h3, _⟩ := misnumbered_gas_lost (exCells 1)
    ⟨fun _ => none, fun _ => none, fun _ => none, fun _ => none, fun _ => none, fun _ => none,
     fun _ => none, fun _ => none, fun _ => none⟩ 5 hgood rfl (exGas 1) rfl (by decide)
  exact ⟨_, _, a, b, rfl, h1, h2, h3⟩

end Verif.Pack
