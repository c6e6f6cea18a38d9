import Verif.Raw.PPLemmas

/-!
# Restart of equilibrium phases from a dump file
-/

namespace Verif.Raw

open Verif.OMap Verif.NameDouble

/-- An assemblage that is a map by phase name, with names that differ in more than upper and lower
case, and with lists that are maps with no name taken for an option. -/
structure PPAssemblage.Loadable (x : PPAssemblage) : Prop where
  sorted : Sorted x.comps
  names : x.comps.Pairwise (fun c d => lower c.1 ≠ lower d.1)
  comps : ∀ c ∈ x.comps, c.1 = c.2.name ∧ ListOk ppCompOpts c.2.totals
  eltList : ListOk ppOpts x.eltList
  totals : ListOk ppOpts x.totals

/-- C127. For every assemblage that meets the conditions, and whatever follows in the file, reading
the dumped text reports no error, ends at the following keyword and gives the assemblage as printed:
the same phases with the same amounts and settings. A phase that is both `dissolve_only` and
`precipitate_only` is no longer `dissolve_only`; `new_def` is off. -/
theorem pp_restart_partial (rnd : ℚ → ℚ) (x : PPAssemblage) (hx : x.Loadable)
    (ls : List Line) (he : BlockEnd ls) :
    ∃ y, readPP (dumpPP rnd x ++ ls) = (y, 0, ls) ∧
      y.head.nUser = x.head.nUser ∧ y.head.nUserEnd = x.head.nUser ∧ y.head.desc = x.head.desc ∧
      y.newDef = false ∧
      y.eltList = x.eltList.map (fun p => (p.1, rnd p.2)) ∧
      y.totals = x.totals.map (fun p => (p.1, rnd p.2)) ∧
      y.comps = x.comps.map (fun p => (p.1,
        ⟨p.2.name, p.2.addFormula, rnd p.2.si, rnd p.2.moles, p.2.forceEquality,
          p.2.dissolveOnly && !p.2.precipitateOnly, p.2.precipitateOnly, rnd p.2.siOrg,
          rnd p.2.delta, rnd p.2.initialMoles, p.2.totals.map (fun p => (p.1, rnd p.2))⟩)) :=
  ⟨_, readPP_dump rnd x ls hx.comps hx.names hx.sorted hx.eltList hx.totals he, rfl, rfl, rfl, rfl,
    rfl, rfl, rfl⟩

/-- The hypotheses are met by two phases, one with an alternative formula. -/
def examplePP : PPAssemblage :=
  ⟨⟨1, 6, [.word "rock".toList]⟩, true,
    [("Calcite".toList, ⟨"Calcite".toList, [], 1/5, 10, false, true, false, 1/5, -1/100, 9,
        [("C".toList, 10), ("Ca".toList, 10), ("O".toList, 30)]⟩),
     ("Gypsum".toList, ⟨"Gypsum".toList, "CaSO4".toList, 0, 3, true, false, true, 0, 0, 3, []⟩)],
    [("C".toList, 1), ("Ca".toList, 1), ("S".toList, 1), ("Si".toList, 2)], []⟩

theorem examplePP_loadable : examplePP.Loadable :=
  ⟨by unfold Sorted; decide +kernel, by decide +kernel, by decide +kernel, by decide +kernel,
    by decide +kernel⟩

example : ((readPP (dumpPP (fun q => q) examplePP ++ [[.word "END".toList]])).1.comps.map
    (fun p => (p.2.moles, p.2.dissolveOnly))) = [(10, true), (3, false)] := by decide +kernel

/-- C127. Dumping, reading and dumping again gives the same text, if printing is stable and no phase
has both settings. -/
theorem pp_redump (rnd : ℚ → ℚ) (hr : ∀ q, rnd (rnd q) = rnd q) (x y : PPAssemblage)
    (hx : x.Loadable) (hb : ∀ c ∈ x.comps, ¬(c.2.dissolveOnly = true ∧ c.2.precipitateOnly = true))
    (ls : List Line) (he : BlockEnd ls) (h : readPP (dumpPP rnd x ++ ls) = (y, 0, ls)) :
    dumpPP rnd y = dumpPP rnd x := by
  rw [readPP_dump rnd x ls hx.comps hx.names hx.sorted hx.eltList hx.totals he] at h
  have hy := (Prod.mk.inj h).1
  subst hy
  have hd : ∀ nd : ND, dumpND rnd (rounded rnd nd) = dumpND rnd nd := by
    intro nd; simp [dumpND, rounded, List.map_map, Function.comp_def, hr]
  have hc : ∀ c ∈ x.comps,
      optLine "component" [.word (c.2.restored rnd).name] :: dumpPPComp rnd (c.2.restored rnd)
        = optLine "component" [.word c.2.name] :: dumpPPComp rnd c.2 := by
    intro c hc
    have hb' : (c.2.dissolveOnly && !c.2.precipitateOnly) = c.2.dissolveOnly := by
      have := hb c hc
      cases h1 : c.2.dissolveOnly <;> cases h2 : c.2.precipitateOnly <;> simp_all
    simp only [dumpPPComp, PPComp.restored, hd, hr, hb']
  have hcs := List.flatMap_congr hc
  simp only [dumpPP, PPAssemblage.restored, ppAll, hd, headLine, List.flatMap_map, hcs]

/-- C127 is violated: silicon in the stored totals of a phase is read as the option `-si`. The
target saturation index becomes the amount of silicon and the silicon is lost. No error is
reported. -/
theorem pp_silicon_violated :
    ∃ x : PPAssemblage, Sorted x.comps ∧
      (∀ c ∈ x.comps, c.1 = c.2.name ∧ Sorted c.2.totals) ∧
      (∃ c, find x.comps "Quartz".toList = some c ∧ c.si = 0 ∧ find c.totals "Si".toList = some 5) ∧
      (readPP (dumpPP (fun q => q) x)).2.1 = 0 ∧
      ∃ c, find (readPP (dumpPP (fun q => q) x)).1.comps "Quartz".toList = some c ∧ c.si = 5 ∧
        find c.totals "Si".toList = none :=
  ⟨⟨⟨1, 1, []⟩, false, [("Quartz".toList, ⟨"Quartz".toList, [], 0, 5, false, false, false, 0, 0, 5,
      [("O".toList, 10), ("Si".toList, 5)]⟩)], [("O".toList, 2), ("Si".toList, 1)], []⟩,
    by unfold Sorted; decide +kernel, by unfold Sorted; decide +kernel,
    ⟨⟨"Quartz".toList, [], 0, 5, false, false, false, 0, 0, 5,
      [("O".toList, 10), ("Si".toList, 5)]⟩, by decide +kernel, by decide +kernel,
      by decide +kernel⟩,
    by decide +kernel,
    ⟨⟨"Quartz".toList, [], 5, 5, false, false, false, 0, 0, 5,
      [("O".toList, 10)]⟩, by decide +kernel, by decide +kernel, by decide +kernel⟩⟩

end Verif.Raw
