import Verif.Raw.SSLemmas

/-!
# Restart of solid solutions from a dump file
-/

namespace Verif.Raw

open Verif.OMap Verif.NameDouble

/-- Solid solutions that are a map by name, with distinct component names, and with totals that are
maps with no name taken for an option. -/
structure SSAssemblage.Loadable (x : SSAssemblage) : Prop where
  sorted : Sorted x.sss
  comps : ∀ c ∈ x.sss, (c.2.comps.map SSComp.name).Nodup ∧ ListOk ssOpts c.2.totals
  totals : ListOk ssAssemblageOpts x.totals

/-- C128. For all solid solutions that meet the conditions, and whatever follows in the file,
reading the dumped text reports no error, ends at the following keyword and gives the solid
solutions as printed: the same solid solutions under the same names, their parameters, and their
components in the same order with the same amounts. -/
theorem ss_restart_partial (rnd : ℚ → ℚ) (x : SSAssemblage) (hx : x.Loadable)
    (ls : List Line) (he : BlockEnd ls) :
    ∃ y, readSSAssemblage (dumpSSAssemblage rnd x ++ ls) = (y, 0, ls) ∧
      y.head.nUser = x.head.nUser ∧ y.head.nUserEnd = x.head.nUser ∧ y.head.desc = x.head.desc ∧
      y.newDef = x.newDef ∧
      y.totals = x.totals.map (fun p => (p.1, rnd p.2)) ∧
      y.sss = x.sss.map (fun s => (s.1,
        ⟨s.1, s.2.comps.map (fun c =>
            ⟨c.name, rnd c.moles, rnd c.initialMoles, rnd c.initMoles, rnd c.delta, rnd c.fraction,
              rnd c.logLambda, rnd c.logFraction, rnd c.dn, rnd c.dnc, rnd c.dnb⟩),
          rnd s.2.tk, s.2.inputCase,
          (rnd s.2.p.1, rnd s.2.p.2.1, rnd s.2.p.2.2.1, rnd s.2.p.2.2.2), rnd s.2.ag0, rnd s.2.ag1,
          rnd s.2.a0, rnd s.2.a1, rnd s.2.xb1, rnd s.2.xb2, s.2.miscibility, s.2.spinodal, s.2.ssIn,
          rnd s.2.totalMoles, rnd s.2.dn, s.2.totals.map (fun p => (p.1, rnd p.2))⟩)) :=
  ⟨_, readSSAssemblage_dump rnd x ls hx.comps hx.sorted hx.totals he, rfl, rfl, rfl, rfl, rfl, rfl⟩

/-- The hypotheses are met by two solid solutions; two component names differ in case only. -/
def exampleSS : SSAssemblage :=
  ⟨⟨1, 6, [.word "rock".toList]⟩,
    [("CaSrCO3".toList, ⟨"CaSrCO3".toList,
        [⟨"Aragonite".toList, 1, 2, 3, 4, 5, 6, 7, 8, 9, 10⟩,
         ⟨"aragonite".toList, 1/3, 0, 0, 0, 0, 0, -1, 0, 0, 0⟩], 300, 2, (1, 2, 3, 4), 1/7, -1/7,
        3/7, -3/7, 1/10, 9/10, true, false, true, 4/3, 8, [("C".toList, 4/3), ("Ca".toList, 1)]⟩),
     ("Clay".toList, ⟨"Clay".toList, [⟨"Illite".toList, 5, 0, 0, 0, 0, 0, 0, 0, 0, 0⟩],
        29815/100, 0, (0, 0, 0, 0), 0, 0, 0, 0, 0, 0, false, true, false, 5, 0, []⟩)],
    true, [("C".toList, 4/3)]⟩

theorem exampleSS_loadable : exampleSS.Loadable :=
  ⟨by unfold Sorted; decide +kernel, by decide +kernel, by decide +kernel⟩

example : ((readSSAssemblage (dumpSSAssemblage (fun q => q) exampleSS
      ++ [[.word "END".toList]])).1.sss.map (fun p => p.2.comps.map SSComp.moles))
    = [[1, 1/3], [5]] := by decide +kernel

/-- C128. Dumping, reading and dumping again gives the same text, if printing is stable. -/
theorem ss_redump (rnd : ℚ → ℚ) (hr : ∀ q, rnd (rnd q) = rnd q) (x y : SSAssemblage)
    (hx : x.Loadable) (ls : List Line) (he : BlockEnd ls)
    (h : readSSAssemblage (dumpSSAssemblage rnd x ++ ls) = (y, 0, ls)) :
    dumpSSAssemblage rnd y = dumpSSAssemblage rnd x := by
  rw [readSSAssemblage_dump rnd x ls hx.comps hx.sorted hx.totals he] at h
  have hy := (Prod.mk.inj h).1
  subst hy
  have hd : ∀ nd : ND, dumpND rnd (rounded rnd nd) = dumpND rnd nd := by
    intro nd; simp [dumpND, rounded, List.map_map, Function.comp_def, hr]
  have hc : ∀ c : SSComp, dumpSSComp rnd (c.restored rnd) = dumpSSComp rnd c := by
    intro c; simp only [dumpSSComp, SSComp.restored, hr]
  have hn : ∀ c : SSComp, (c.restored rnd).name = c.name := fun _ => rfl
  have hss : ∀ k (c : SS), dumpSS rnd (c.restored rnd k) = dumpSS rnd c := by
    intro k c; simp only [dumpSS, SS.restored, hr, hd, List.flatMap_map, hc, hn]
  simp only [dumpSSAssemblage, SSAssemblage.restored, ssAll, hd, headLine, List.flatMap_map, hss]

/-- C128 is violated: phosphorus in the stored totals of a solid solution is read as the option
`-p`, which sets the parameters and reports errors. -/
theorem ss_phosphorus_violated :
    ∃ x : SSAssemblage, Sorted x.sss ∧ (∀ c ∈ x.sss, c.1 = c.2.name ∧ Sorted c.2.totals) ∧
      (∃ c, find x.sss "Apatite".toList = some c ∧ c.p = (3, 1, 0, 0) ∧
        find c.totals "P".toList = some 5) ∧
      (readSSAssemblage (dumpSSAssemblage (fun q => q) x)).2.1 = 3 ∧
      ∃ c, find (readSSAssemblage (dumpSSAssemblage (fun q => q) x)).1.sss "Apatite".toList = some c ∧
        c.p = (5, 0, 0, 0) ∧ find c.totals "P".toList = none :=
  ⟨⟨⟨1, 1, []⟩, [("Apatite".toList, ⟨"Apatite".toList, [], 300, 0, (3, 1, 0, 0), 0, 0, 0, 0, 0, 0,
      false, false, false, 0, 0, [("O".toList, 20), ("P".toList, 5)]⟩)], false, []⟩,
    by unfold Sorted; decide +kernel, by unfold Sorted; decide +kernel,
    ⟨⟨"Apatite".toList, [], 300, 0, (3, 1, 0, 0), 0, 0, 0, 0, 0, 0,
      false, false, false, 0, 0, [("O".toList, 20), ("P".toList, 5)]⟩, by decide +kernel, rfl,
      by decide +kernel⟩,
    by decide +kernel,
    ⟨⟨"Apatite".toList, [], 300, 0, (5, 0, 0, 0), 0, 0, 0, 0, 0, 0,
      false, false, false, 0, 0, [("O".toList, 20)]⟩, by decide +kernel, rfl, by decide +kernel⟩⟩

end Verif.Raw
