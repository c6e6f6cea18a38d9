import Verif.Raw.KineticsLemmas

/-!
# Restart of kinetic reactants from a dump file
-/

namespace Verif.Raw

open Verif.OMap Verif.NameDouble

/-- Kinetic reactants whose rate names differ in more than upper and lower case and whose lists are
maps with no name taken for an option. -/
structure Kinetics.Loadable (x : Kinetics) : Prop where
  lists : ∀ c ∈ x.comps, ListOk kinCompOpts c.namecoef
  names : x.comps.Pairwise (fun c d => lower c.name ≠ lower d.name)
  totals : ListOk kineticsOpts x.totals

/-- C126. For all kinetic reactants that meet the conditions, and whatever follows in the file,
reading the dumped text reports no error, ends at the following keyword and gives the reactants as
printed: every setting, the components in the same order with their formulas and parameters, the
time steps. Only the workspace `moles_of_reaction` is not written. -/
theorem kinetics_restart (rnd : ℚ → ℚ) (x : Kinetics) (hx : x.Loadable)
    (ls : List Line) (he : BlockEnd ls) :
    ∃ y, readKinetics (dumpKinetics rnd x ++ ls) = (y, 0, ls) ∧
      y.head.nUser = x.head.nUser ∧ y.head.nUserEnd = x.head.nUser ∧ y.head.desc = x.head.desc ∧
      y.stepDivide = rnd x.stepDivide ∧ y.rk = x.rk ∧ y.badStepMax = x.badStepMax ∧
      y.useCvode = x.useCvode ∧ y.cvodeSteps = x.cvodeSteps ∧ y.cvodeOrder = x.cvodeOrder ∧
      y.equal = x.equal ∧ y.count = x.count ∧ y.steps = x.steps.map rnd ∧
      y.totals = x.totals.map (fun p => (p.1, rnd p.2)) ∧
      y.comps = x.comps.map (fun c =>
        ⟨c.name, rnd c.tol, rnd c.m, rnd c.m0, c.namecoef.map (fun p => (p.1, rnd p.2)),
          c.dParams.map rnd, rnd c.moles, rnd c.initialMoles, []⟩) :=
  ⟨_, readKinetics_dump rnd x ls hx.lists hx.names hx.totals he, rfl, rfl, rfl, rfl, rfl, rfl, rfl,
    rfl, rfl, rfl, rfl, rfl, rfl, rfl⟩

/-- C126. Dumping, reading and dumping again gives the same text, if printing is stable. -/
theorem kinetics_redump (rnd : ℚ → ℚ) (hr : ∀ q, rnd (rnd q) = rnd q) (x y : Kinetics)
    (hx : x.Loadable) (ls : List Line) (he : BlockEnd ls)
    (h : readKinetics (dumpKinetics rnd x ++ ls) = (y, 0, ls)) :
    dumpKinetics rnd y = dumpKinetics rnd x := by
  rw [readKinetics_dump rnd x ls hx.lists hx.names hx.totals he] at h
  have hy := (Prod.mk.inj h).1
  subst hy
  have hd : ∀ nd : ND, dumpND rnd (rounded rnd nd) = dumpND rnd nd := by
    intro nd; simp [dumpND, rounded, List.map_map, Function.comp_def, hr]
  have hn' : ∀ (qs : List ℚ) (i : Nat) (cur : Line),
      numLinesFrom rnd i cur (qs.map rnd) = numLinesFrom rnd i cur qs := by
    intro qs
    induction qs with
    | nil => intro i cur; rfl
    | cons q qs ih => intro i cur; simp only [List.map_cons, numLinesFrom, hr, ih]
  have hn : ∀ qs : List ℚ, numLines rnd (qs.map rnd) = numLines rnd qs := by
    intro qs; unfold numLines; rw [hn']
  have hc : ∀ c : KinComp, dumpKinComp rnd (c.restored rnd) = dumpKinComp rnd c := by
    intro c; simp only [dumpKinComp, KinComp.restored, hd, hn, hr]
  simp only [dumpKinetics, Kinetics.restored, hd, hn, hr, headLine, List.flatMap_map, hc]
  rfl

/-- The hypotheses are met by a reactant with seven parameters and six time steps. -/
def exampleKinetics : Kinetics :=
  ⟨⟨1, 3, [.word "pyrite".toList]⟩, 10, 6, 1000, true, 200, 4,
    [⟨"Pyrite".toList, 1/1000, 1/3, 2, [("FeAs2".toList, 1/1000), ("FeS2".toList, 1)],
        [1, 2, 3, 4, 5, 6, -7], 1/9, 1/8, [("Fe".toList, 1)]⟩,
     ⟨"Organic_C".toList, 1/100000000, 5, 5, [("CH2O".toList, 1)], [], 0, 0, []⟩],
    true, 2, [10, 20, 30, 40, 50, 60], []⟩

theorem exampleKinetics_loadable : exampleKinetics.Loadable :=
  ⟨by decide +kernel, by decide +kernel, by decide +kernel⟩

example :
    (readKinetics (dumpKinetics (fun q => q) exampleKinetics ++ [[.word "END".toList]])).1.steps
      = [10, 20, 30, 40, 50, 60] := by decide +kernel

end Verif.Raw
