import Verif.Lockstep.EndsLemmas

/-!
# A small simulation, used as an example and to show failures
-/

namespace Verif.Lockstep.Demo

open Verif.Lockstep

/-- Two processes and three cells. The chemistry counts what was done to it. The InitialPhreeqc and
Utility instances fail for the input `x`, the worker of a process with chemistry 7 fails for the input
`y`. Rebalancing gives the first process one cell and the second process the others. -/
def E : Engine Nat where
  load := fun t c => (c + 1, 0, if t = ['x'] then 1 else 0, 0)
  runFile := fun i t c => (c + 1, if t = ['x'] ∧ i ≠ 0 ∨ t = ['y'] ∧ i = 0 ∧ c = 7 then 1 else 0)
  runString := fun i t c => (c + 1, if t = ['x'] ∧ i ≠ 0 ∨ t = ['y'] ∧ i = 0 ∧ c = 7 then 1 else 0)
  errText := fun _ => ['e', 'r', 'r']
  defined := fun _ _ _ => true
  runCells := fun p s => (s.chem + 1, 0, List.replicate (p + 1) 'o')
  conc := fun _ s k i => (s.chem : ℚ) + k + i
  setConc := fun _ s d => s.chem + d.length
  species := fun c k i => (c : ℚ) + k + i
  reading := fun _ s _ k => (s.chem : ℚ) + k
  apply := fun _ _ v c => c + v.length
  cellTime := fun _ k => (k : ℚ)
  threadTime := fun c => (c : ℚ)
  balanceCells := fun _ sh _ => if sh.back.length = 0 then [0, 0] else [1, sh.back.length - 1]
  balanceTasks := fun _ sh _ => some (if sh.back.length = 0 then [0, 0] else [1, sh.back.length - 1])
  pack := fun c l => (['c'], [(c : Int)], l.map (fun k => (k : ℚ)))
  unpack := fun c x => some (c + x.2.2.length)
  delete := fun c l => (c - l.length, 0)
  uzTake := fun c l => (c, List.replicate l.length 'u')
  uzPut := fun c _ => c
  world := id

/-- The settings. -/
def set0 : Settings where
  mode := 0
  filePrefix := []
  nums := fun k => if k = .rebalanceFraction then 1 else 0
  flags := fun f => f = .rebalanceByCell
  units := fun _ => 1
  partUZ := false
  printOn := (false, false, false)

/-- Two cells for the first process, one for the second. -/
def sh0 : Shared where
  set := set0
  check := true
  nxyz := 3
  back := [[0], [1], [2]]
  cells := [2, 1]
  ncomp := 2
  nspec := 3
  savedCells := []

/-- The two processes. -/
def s0 (p : Nat) : St Nat where
  sh := sh0
  database := []
  chemistryName := []
  errs := []
  rootArr := fun _ => if p = 0 then [1, 2, 3] else []
  workArr := fun _ => if p = 0 then [1, 2] else [3]
  oldSatRoot := []
  oldSatWork := []
  maskRoot := if p = 0 then [0, 1, 0] else []
  maskWork := if p = 0 then [0, 1] else [0]
  saved := []
  chem := if p = 0 then 5 else 7
  out := []
  errorCount := 0

theorem works : Spec.Works 2 E where
  world := fun _ => rfl
  unpack := fun _ _ => rfl
  delete := fun _ _ => rfl
  cells := by
    intro sh t
    unfold Spec.Divides E
    dsimp only
    split
    · rename_i h; rw [h]; exact ⟨rfl, rfl⟩
    · refine ⟨rfl, ?_⟩
      simp only [List.sum_cons, List.sum_nil]; omega
  tasks := by
    intro sh t new h
    unfold Spec.Divides
    unfold E at h
    dsimp only at h
    cases h
    split
    · rename_i h; rw [h]; exact ⟨rfl, rfl⟩
    · refine ⟨rfl, ?_⟩
      simp only [List.sum_cons, List.sum_nil]; omega

theorem ready : Spec.Ready 2 s0 where
  agree := fun _ _ => rfl
  divides := ⟨rfl, rfl⟩
  back := by
    intro b hb
    simp only [s0, sh0, List.mem_cons, List.not_mem_nil, or_false] at hb
    rcases hb with rfl | rfl | rfl
    · exact ⟨0, rfl, by decide⟩
    · exact ⟨1, rfl, by decide⟩
    · exact ⟨2, rfl, by decide⟩
  arrays := fun _ _ => Nat.le_refl 3
  mask := Nat.le_refl 3
  keys := fun _ _ => rfl
  savedDivides := by intro e he; cases he
  mode := Or.inl rfl
  oldSat := by intro h; cases h

theorem pieces : Spec.Pieces 2 s0 := by
  intro p hp
  have : p = 0 ∨ p = 1 := by omega
  rcases this with rfl | rfl
  · refine ⟨fun a _ => ⟨rfl, ?_⟩, ⟨rfl, ?_⟩⟩
    · intro l hl
      have : l = 0 ∨ l = 1 := by simp [s0] at hl; omega
      rcases this with rfl | rfl
      · exact ⟨0, rfl, (by decide : 0 < 3), rfl⟩
      · exact ⟨1, rfl, (by decide : 1 < 3), rfl⟩
    · intro l hl
      have : l = 0 ∨ l = 1 := by simp [s0] at hl; omega
      rcases this with rfl | rfl
      · exact ⟨0, rfl, (by decide : 0 < 3), rfl⟩
      · exact ⟨1, rfl, (by decide : 1 < 3), rfl⟩
  · refine ⟨fun a _ => ⟨rfl, ?_⟩, ⟨rfl, ?_⟩⟩
    · intro l hl
      have : l = 0 := by simp [s0] at hl; omega
      subst this
      exact ⟨2, rfl, (by decide : 2 < 3), rfl⟩
    · intro l hl
      have : l = 0 := by simp [s0] at hl; omega
      subst this
      exact ⟨2, rfl, (by decide : 2 < 3), rfl⟩

/-- A program of calls: settings, a property of the cells, input, saving, running with rebalancing and
getting results. -/
def calls : List Call :=
  [.setNum .time 10, .setUnits .solution 9, .setUnits .solution 2, .setFlag .speciesSaveOn true,
   .setArr .porosity [4, 5, 6], .setArr .porosity [7], .setMask [1, 0, 1], .loadDatabase ['d'],
   .runString true true false ['q'], .stateSave 1, .setPrintOn true false false, .runCells,
   .getConcentrations, .getReading .pressure, .stateDelete 1, .getErrorString]

theorem fine : ∀ c ∈ calls, Spec.Fine (s0 0).sh.nxyz (s0 0).sh.ncomp c := by
  intro c hc
  simp only [calls, List.mem_cons, List.not_mem_nil, or_false] at hc
  rcases hc with rfl | rfl | rfl | rfl | rfl | rfl | rfl | rfl | rfl | rfl | rfl | rfl | rfl | rfl | rfl | rfl <;>
    first | trivial | (show 3 ≤ [(1 : Int), 0, 1].length; decide)

end Verif.Lockstep.Demo
