import Verif.Steps.Props

/-! # Concrete cases for the reaction steps -/

namespace Verif.Steps

/-- `-steps 100 in 4 steps`. -/
def ex : Sched := ⟨[100], true, 4⟩

example : readKinetics [.num 100 (some 100), .word true, .num 4 (some 4), .word false] =
    some ex := by
  obtain ⟨k, h, he⟩ := read_equal 100 4 (some 100) 4 (by decide) [.word false] (by simp)
  rw [h]
  obtain ⟨steps, equal, count⟩ := k
  have h2 := he.equal
  have h3 := he.count
  simp only at h2 h3
  subst h2 h3
  rw [show [Tok.num 100 (some 100), .word true, .num 4 (some 4), .word false] =
    Tok.num 100 (some 100) :: .word true :: .num 4 (some 4) :: [.word false] from rfl] at h
  unfold readKinetics at h
  rw [readSteps, readSteps] at h
  simp [Sched.new, findCount, Tok.int, readSteps, Sched.finish] at h
  simp [ex, h]

theorem ex_equal : Equal ex 100 4 := ⟨rfl, rfl, rfl, by decide⟩

example : runSteps (ex.currentStep true) true 6 = .ok ([25, 25, 25, 25, 0, 0], ⟨100, 100⟩) := by
  decide +kernel

example : runSteps (ex.currentStep false) false 3 = .ok ([25, 50, 75], ⟨0, 75⟩) := by
  decide +kernel

/-- Explicit steps 1, 2, 5 with two further steps. -/
example : runSteps ((⟨[1, 2, 5], false, 0⟩ : Sched).currentStep true) true 5 =
    .ok ([1, 2, 5, 5, 5], ⟨18, 18⟩) := by decide +kernel

/-- A reaction `1 mol in 5 steps`. -/
example : reactionCount ⟨[1], false, 0⟩ [.word true, .num 5 (some 5), .word false] =
    some ⟨[1], true, 5⟩ := by decide +kernel

/-- A cell with kinetics and four temperatures, run with a time step of 10. -/
def exCell : Cell := ⟨some ex, 4⟩

example : exCell.run 10 true false =
    .ok ([5 / 2, 5 / 2, 5 / 2, 5 / 2], ⟨10, 10⟩) := by decide +kernel

example : exCell.run 10 true true = .ok ([10], ⟨10, 10⟩) := by decide +kernel

example : exCell.reported 50 10 false = .ok 50 ∧
    (⟨none, 4⟩ : Cell).reported 50 10 false = .ok 0 := by decide +kernel

example : (⟨[25, 75], true, 3⟩ : Sched).forStep 2 = .ok 50 := by decide +kernel

/-- One temperature with equal increments would be read outside the vector. -/
example : (⟨[25], true, 3⟩ : Sched).forStep 2 = .ub := by decide +kernel

example : convertTime 2 .day .hour = 48 := by decide +kernel

end Verif.Steps
