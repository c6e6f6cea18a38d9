import Verif.Raw.GasLemmas

/-!
# Restart of a gas phase from a dump file
-/

namespace Verif.Raw

open Verif.OMap Verif.NameDouble

/-- A gas phase whose component names differ in more than upper and lower case and whose totals
are a map with no name taken for an option of `GAS_PHASE_RAW`. -/
structure GasPhase.Loadable (x : GasPhase) : Prop where
  names : x.comps.Pairwise (fun c d => lower c.name ≠ lower d.name)
  totals : ListOk gasPhaseOpts x.totals

/-- C124. For every gas phase that meets the conditions, and whatever follows in the file, reading
the dumped text reports no error, ends at the following keyword and gives the gas phase as printed,
with the components in the same order, except that all partial pressures are zero. -/
theorem gas_restart_partial (rnd : ℚ → ℚ) (x : GasPhase) (hx : x.Loadable)
    (ls : List Line) (he : BlockEnd ls) :
    ∃ y, readGasPhase (dumpGasPhase rnd x ++ ls) = (y, 0, ls) ∧
      y.head.nUser = x.head.nUser ∧ y.head.nUserEnd = x.head.nUser ∧ y.head.desc = x.head.desc ∧
      y.type = x.type ∧ y.totalP = rnd x.totalP ∧ y.volume = rnd x.volume ∧
      y.newDef = x.newDef ∧ y.solEq = x.solEq ∧ y.nSolution = x.nSolution ∧
      y.temperature = rnd x.temperature ∧ y.totalMoles = rnd x.totalMoles ∧ y.vm = rnd x.vm ∧
      y.prIn = x.prIn ∧ y.totals = x.totals.map (fun p => (p.1, rnd p.2)) ∧
      y.comps = x.comps.map (fun c =>
        ⟨c.name, rnd c.moles, rnd c.pRead, rnd c.initialMoles, 0, rnd c.phi, rnd c.f⟩) :=
  ⟨_, readGasPhase_dump rnd x ls hx.names hx.totals he, rfl, rfl, rfl, rfl, rfl, rfl, rfl, rfl, rfl,
    rfl, rfl, rfl, rfl, rfl, rfl⟩

/-- The hypotheses are met by a gas phase with two components. -/
def exampleGas : GasPhase :=
  ⟨⟨2, 4, [.word "soil".toList, .word "gas".toList]⟩, 1, 3/2, 7,
    [⟨"CO2(g)".toList, 1/3, 0, 1/4, 1/9, 99/100, 1/11⟩,
     ⟨"O2(g)".toList, 2, 1/5, 0, 7/10, 1, 7/10⟩], true, true, 3, 300, 7/3, 24, true,
    [("C".toList, 1/3), ("O".toList, 14/3)]⟩

theorem exampleGas_loadable : exampleGas.Loadable := ⟨by decide +kernel, by decide +kernel⟩

example : (readGasPhase (dumpGasPhase (fun q => q) exampleGas ++ [[.word "END".toList]])).1.totals
    = exampleGas.totals := by decide +kernel

/-- C124 is violated: the line `-p` is taken for the obsolete `-phase_name`, so the partial
pressures are zero after a restart, for every gas phase that can be read. No error is reported. -/
theorem gas_pressure_violated (rnd : ℚ → ℚ) (x : GasPhase) (hx : x.Loadable) (c : GasComp)
    (hc : c ∈ x.comps) (ls : List Line) (he : BlockEnd ls) :
    (readGasPhase (dumpGasPhase rnd x ++ ls)).2.1 = 0 ∧
      ∃ d ∈ (readGasPhase (dumpGasPhase rnd x ++ ls)).1.comps, d.name = c.name ∧ d.p = 0 := by
  rw [readGasPhase_dump rnd x ls hx.names hx.totals he]
  exact ⟨rfl, c.restored rnd, List.mem_map_of_mem hc, rfl, rfl⟩

/-- The hypotheses of `gas_pressure_violated` are met with a pressure of 7/10. -/
example : ∃ c ∈ exampleGas.comps, c.name = "O2(g)".toList ∧ c.p = 7/10 ∧
    ∃ d ∈ (readGasPhase (dumpGasPhase (fun q => q) exampleGas ++ [])).1.comps,
      d.name = c.name ∧ d.p = 0 :=
  ⟨⟨"O2(g)".toList, 2, 1/5, 0, 7/10, 1, 7/10⟩, by decide +kernel, rfl, rfl,
    (gas_pressure_violated (fun q => q) exampleGas exampleGas_loadable _ (by decide +kernel) []
      (Or.inl rfl)).2⟩

/-- C124. Dumping a second time after a restart gives the same text as the first time, if the
partial pressures were zero in the first place and printing is stable. -/
theorem gas_redump (rnd : ℚ → ℚ) (hr : ∀ q, rnd (rnd q) = rnd q) (h0 : rnd 0 = 0)
    (x y : GasPhase) (hx : x.Loadable) (hp : ∀ c ∈ x.comps, c.p = 0)
    (ls : List Line) (he : BlockEnd ls)
    (h : readGasPhase (dumpGasPhase rnd x ++ ls) = (y, 0, ls)) :
    dumpGasPhase rnd y = dumpGasPhase rnd x := by
  rw [readGasPhase_dump rnd x ls hx.names hx.totals he] at h
  have hy := (Prod.mk.inj h).1
  subst hy
  have hd : ∀ nd : ND, dumpND rnd (rounded rnd nd) = dumpND rnd nd := by
    intro nd; simp [dumpND, rounded, List.map_map, Function.comp_def, hr]
  have hc : ∀ c ∈ x.comps, optLine "component" [.word c.name] :: dumpGasComp rnd (c.restored rnd)
      = optLine "component" [.word c.name] :: dumpGasComp rnd c := by
    intro c hc
    simp [dumpGasComp, GasComp.restored, hr, hp c hc, h0]
  have hcs : x.comps.flatMap (fun c =>
        optLine "component" [.word c.name] :: dumpGasComp rnd (c.restored rnd))
      = x.comps.flatMap (fun c => optLine "component" [.word c.name] :: dumpGasComp rnd c) :=
    List.flatMap_congr hc
  simp only [dumpGasPhase, GasPhase.restored, hd, hr, headLine, List.flatMap_map]
  rw [← hcs]
  rfl

end Verif.Raw
