import Verif.Raw.BlocksLemmas

/-!
# Restart of mixtures, reactions, reaction temperatures and reaction pressures from a dump file
-/

namespace Verif.Raw

open Verif.OMap Verif.NameDouble

/-- C125. Every reaction temperature, dumped and read as part of any file: no error, the same
number, description and kind, the temperatures as printed, the same number of steps. -/
theorem temperature_restart (rnd : ℚ → ℚ) (x : StepList) (ls : List Line) (he : BlockEnd ls) :
    ∃ y, readStepList temperatureOpts (dumpTemperature rnd x ++ ls) = (y, 0, ls) ∧
      y.head.nUser = x.head.nUser ∧ y.head.desc = x.head.desc ∧ y.equal = x.equal ∧
      y.values = x.values.map rnd ∧ y.steps = x.steps := by
  refine ⟨_, readTemperature_dump rnd x ls he, rfl, rfl, rfl, rfl, ?_⟩
  unfold StepList.steps
  dsimp only
  split
  · rfl
  · rw [List.length_map]

/-- C125. The same for every reaction pressure. -/
theorem pressure_restart (rnd : ℚ → ℚ) (x : StepList) (ls : List Line) (he : BlockEnd ls) :
    ∃ y, readStepList pressureOpts (dumpPressure rnd x ++ ls) = (y, 0, ls) ∧
      y.head.nUser = x.head.nUser ∧ y.head.desc = x.head.desc ∧ y.equal = x.equal ∧
      y.values = x.values.map rnd ∧ y.count = x.count ∧ y.steps = x.steps := by
  refine ⟨_, readPressure_dump rnd x ls he, rfl, rfl, rfl, rfl, rfl, ?_⟩
  unfold StepList.steps
  dsimp only
  rw [List.length_map]

/-- A reaction with units, whose lists are maps with no name taken for an option of
`REACTION_RAW`. -/
structure Reaction.Loadable (x : Reaction) : Prop where
  units : x.units ≠ []
  reactants : ListOk reactionOpts x.reactants
  elements : ListOk reactionOpts x.elements

/-- C125. The same for every reaction that meets the conditions. -/
theorem reaction_restart (rnd : ℚ → ℚ) (x : Reaction) (hx : x.Loadable) (ls : List Line)
    (he : BlockEnd ls) :
    ∃ y, readReaction (dumpReaction rnd x ++ ls) = (y, 0, ls) ∧
      y.head.nUser = x.head.nUser ∧ y.head.desc = x.head.desc ∧ y.units = x.units ∧
      y.equal = x.equal ∧ y.count = x.count ∧ y.steps = x.steps.map rnd ∧
      y.reactants = x.reactants.map (fun p => (p.1, rnd p.2)) ∧
      y.elements = x.elements.map (fun p => (p.1, rnd p.2)) :=
  ⟨_, readReaction_dump rnd x ls hx.units hx.reactants hx.elements he, rfl, rfl, rfl, rfl, rfl, rfl,
    rfl, rfl⟩

/-- C125. The same for every mixture. -/
theorem mix_restart (rnd : ℚ → ℚ) (x : Mix) (hs : Sorted x.comps) (ls : List Line)
    (he : BlockEnd ls) :
    ∃ y, readMix (dumpMix rnd x ++ ls) = (y, 0, ls) ∧
      y.head.nUser = x.head.nUser ∧ y.head.desc = x.head.desc ∧
      y.comps = x.comps.map (fun p => (p.1, rnd p.2)) :=
  ⟨_, readMix_dump rnd x ls hs he, rfl, rfl, rfl⟩

/-- A list of twelve temperatures is written on two lines. -/
def exampleTemps : StepList :=
  ⟨⟨4, 4, [.word "heat".toList]⟩, [25, 30, 35, 40, 45, 50, 55, 60, 65, 70, 75, 80], 0, false⟩

example : (readStepList temperatureOpts
    (dumpTemperature (fun q => q) exampleTemps ++ [[.word "END".toList]])).1.values
      = exampleTemps.values ∧
    (dumpTemperature (fun q => q) exampleTemps).length = 7 := by decide +kernel

/-- The hypotheses are met by a reaction with seven steps. -/
def exampleReaction : Reaction :=
  ⟨⟨1, 1, []⟩, [("CaCl2".toList, 1/2), ("NaCl".toList, -1)], [1, 2, 3, 4, 5, 6, 7], 7, true,
    "mMol".toList, [("Ca".toList, 1/2), ("Cl".toList, 0), ("Na".toList, -1)]⟩

theorem exampleReaction_loadable : exampleReaction.Loadable :=
  ⟨by decide, by decide +kernel, by decide +kernel⟩

example : (readReaction (dumpReaction (fun q => q) exampleReaction ++ [[.word "END".toList]])).1
    = exampleReaction := by decide +kernel

example : (readMix (dumpMix (fun q => q) ⟨⟨3, 3, []⟩, [(-2, 1/2), (1, 1/3), (7, 1/6)]⟩
    ++ [[.word "END".toList]])) = (⟨⟨3, 3, []⟩, [(-2, 1/2), (1, 1/3), (7, 1/6)]⟩, 0,
      [[.word "END".toList]]) := by decide +kernel

end Verif.Raw
