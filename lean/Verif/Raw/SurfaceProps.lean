import Verif.Raw.SurfaceLemmas

/-!
# Restart of a surface from a dump file
-/

namespace Verif.Raw

open Verif.OMap Verif.NameDouble

/-- A surface whose text can be read back: the names of components and of charges differ in more
than upper and lower case, every component has a charge name and a master element, the lists are
maps with no name taken for an option, the charges of `g_map` stay apart when printed, the
workspace totals are empty. -/
structure Surface.Loadable (rnd : ℚ → ℚ) (x : Surface) : Prop where
  formulas : x.comps.Pairwise (fun c d => lower c.formula ≠ lower d.formula)
  names : x.charges.Pairwise (fun c d => lower c.name ≠ lower d.name)
  comps : ∀ c ∈ x.comps, c.chargeName ≠ [] ∧ c.masterElement ≠ [] ∧ ListOk surfCompOpts c.totals
  charges : ∀ c ∈ x.charges, ListOk surfChargeOpts c.dlTotals ∧ Sorted c.dlSpecies ∧
    c.gMap.Pairwise (fun p q => rnd p.1 < rnd q.1)
  work : x.totals = []

theorem Surface.Loadable.read {rnd : ℚ → ℚ} {x : Surface} (hx : x.Loadable rnd) (ls : List Line)
    (he : BlockEnd ls) : readSurface (dumpSurface rnd x ++ ls)
      = (x.restored rnd ⟨x.head.nUser, x.head.nUser, x.head.desc⟩, 0, ls) :=
  readSurface_dump rnd x ls (fun c hc => ⟨(hx.comps c hc).1, (hx.comps c hc).2.1,
    (hx.comps c hc).2.2⟩) hx.formulas (fun c hc => ⟨(hx.charges c hc).1, (hx.charges c hc).2.1,
    (hx.charges c hc).2.2⟩) hx.names hx.work he

theorem nodup_of_lower {ν : Type} (key : ν → Name) (cs : List ν)
    (h : cs.Pairwise (fun c d => lower (key c) ≠ lower (key d))) : (cs.map key).Nodup := by
  unfold List.Nodup
  rw [List.pairwise_map]
  exact h.imp (fun hne he => hne (congrArg lower he))

/-- C129. For every surface that meets the conditions, and whatever follows in the file, reading the
dumped text reports no error, ends at the following keyword and gives the surface as printed: every
setting; the components, in the order of their formulas, and the charges, in the order of their
names, with their amounts, totals, diffuse layers and electrostatic parameters. Missing for the full
claim is the switch that makes the viscosity of the diffuse layer be calculated
(`surface_viscosity_violated`), and the conditions. -/
theorem surface_restart_partial (rnd : ℚ → ℚ) (x : Surface) (hx : x.Loadable rnd)
    (ls : List Line) (he : BlockEnd ls) :
    ∃ y, readSurface (dumpSurface rnd x ++ ls) = (y, 0, ls) ∧
      y.head.nUser = x.head.nUser ∧ y.head.nUserEnd = x.head.nUser ∧ y.head.desc = x.head.desc ∧
      y.type = x.type ∧ y.dlType = x.dlType ∧ y.onlyCounterIons = x.onlyCounterIons ∧
      y.correctD = x.correctD ∧ y.thickness = rnd x.thickness ∧
      y.debyeLengths = rnd x.debyeLengths ∧ y.viscosity = rnd x.viscosity ∧
      y.limit = rnd x.limit ∧ y.newDef = x.newDef ∧ y.tidied = x.tidied ∧
      y.sitesUnits = x.sitesUnits ∧ y.solEq = x.solEq ∧ y.nSolution = x.nSolution ∧
      y.transport = x.transport ∧ y.totals = [] ∧ y.calcViscosity = false ∧
      y.comps.Perm (x.comps.map (fun c =>
        ⟨c.formula, rnd c.formulaZ, rnd c.moles, rnd c.la, rnd c.chargeBalance, c.phaseName,
          c.rateName, rnd c.phaseProportion, rnd c.dw, c.chargeName, c.masterElement,
          c.totals.map (fun p => (p.1, rnd p.2))⟩)) ∧
      y.comps.Pairwise (fun a b => a.formula < b.formula) ∧
      y.charges.Perm (x.charges.map (fun c =>
        ⟨c.name, rnd c.specificArea, rnd c.grams, rnd c.chargeBalance, rnd c.massWater, rnd c.fFree,
          rnd c.viscosity, rnd c.laPsi, rnd c.capacitance0, rnd c.capacitance1,
          c.dlTotals.map (fun p => (p.1, rnd p.2)), c.dlSpecies.map (fun p => (p.1, rnd p.2)),
          rnd c.sigma0, rnd c.sigma1, rnd c.sigma2, rnd c.sigmaddl,
          c.gMap.map (fun p => (rnd p.1, rnd p.2.1, rnd p.2.2.1, rnd p.2.2.2)), []⟩)) ∧
      y.charges.Pairwise (fun a b => a.name < b.name) := by
  have n1 : ((x.comps.map (SurfComp.restored rnd)).map SurfComp.formula).Nodup := by
    have := nodup_of_lower SurfComp.formula x.comps hx.formulas
    simpa [List.map_map, Function.comp_def, SurfComp.restored] using this
  have n2 : ((x.charges.map (SurfCharge.restored rnd)).map SurfCharge.name).Nodup := by
    have := nodup_of_lower SurfCharge.name x.charges hx.names
    simpa [List.map_map, Function.comp_def, SurfCharge.restored] using this
  obtain ⟨p1, p2⟩ := sortBy_perm SurfComp.formula _ n1
  obtain ⟨q1, q2⟩ := sortBy_perm SurfCharge.name _ n2
  exact ⟨_, hx.read ls he, rfl, rfl, rfl, rfl, rfl, rfl, rfl, rfl, rfl, rfl, rfl, rfl, rfl, rfl,
    rfl, rfl, rfl, rfl, rfl, p1, p2, q1, q2⟩

/-- C129. Dumping, reading and dumping again gives the same text, if printing is stable and
components and charges are in the order in which `read_raw` leaves them. -/
theorem surface_redump (rnd : ℚ → ℚ) (hr : ∀ q, rnd (rnd q) = rnd q) (x y : Surface)
    (hx : x.Loadable rnd) (h1 : x.comps.Pairwise (fun a b => a.formula < b.formula))
    (h2 : x.charges.Pairwise (fun a b => a.name < b.name)) (ls : List Line) (he : BlockEnd ls)
    (h : readSurface (dumpSurface rnd x ++ ls) = (y, 0, ls)) :
    dumpSurface rnd y = dumpSurface rnd x := by
  rw [hx.read ls he] at h
  have hy := (Prod.mk.inj h).1
  subst hy
  have o1 : (x.comps.map (SurfComp.restored rnd)).Pairwise (fun a b => a.formula < b.formula) := by
    rw [List.pairwise_map]; exact h1
  have o2 : (x.charges.map (SurfCharge.restored rnd)).Pairwise (fun a b => a.name < b.name) := by
    rw [List.pairwise_map]; exact h2
  have hd : ∀ nd : ND, dumpND rnd (rounded rnd nd) = dumpND rnd nd := by
    intro nd; simp [dumpND, rounded, List.map_map, Function.comp_def, hr]
  have hi : ∀ m : SMap Int ℚ, dumpIntMap rnd (rounded rnd m) = dumpIntMap rnd m := by
    intro m; simp [dumpIntMap, rounded, List.map_map, Function.comp_def, hr]
  have he : ∀ m : SMap Int ℚ, rounded rnd m = [] ↔ m = [] := by
    intro m; simp [rounded]
  have hc : ∀ c : SurfComp, dumpSurfComp rnd (c.restored rnd) = dumpSurfComp rnd c := by
    intro c; simp [dumpSurfComp, SurfComp.restored, hd, hr]
  have hq : ∀ c : SurfCharge, dumpSurfCharge rnd (c.restored rnd) = dumpSurfCharge rnd c := by
    intro c
    simp [dumpSurfCharge, SurfCharge.restored, hd, hi, he, hr, gRounded, List.map_map,
      Function.comp_def]
  simp only [dumpSurface, Surface.restored, Surface.collected, sortBy_sorted _ _ o1,
    sortBy_sorted _ _ o2, List.flatMap_map, hc, hq, headLine, hr, hx.work]
  rfl

/-- The hypotheses are met by a surface with two components, one charge with a diffuse layer, and
the calculated viscosity switched on. -/
def exampleSurface : Surface :=
  ⟨⟨3, 9, [.word "ferrihydrite".toList]⟩, 2, 2, true, false, 1/100000000, 1, 1, 4/5,
    [⟨"Hfo_sOH".toList, 1, 1/200, -3, 0, [], [], 0, 0, "Hfo".toList, "Hfo_s".toList,
        [("H".toList, 1/200), ("Hfo_s".toList, 1/200), ("Zn".toList, 1/9)]⟩,
     ⟨"Hfo_wOH".toList, 0, 1/5, -2, 1/7, "Ferrihydrite".toList, [], 1/5, 1/3, "Hfo".toList,
        "Hfo_w".toList, [("H".toList, 1/5), ("Hfo_w".toList, 1/5)]⟩],
    [⟨"Hfo".toList, 600, 9/100, 1/11, 1/2, 0, 1, -4, 1, 5, [("Cl".toList, 1/1000)],
        [(3, 1/4), (17, 2)], 1/10, 0, 0, -1/10,
        [(-1, (1/2, 1/3, 1/4)), (1, (2, 3, 4)), (2, (0, 0, 1))], [(1, 7)]⟩],
    false, true, 1, true, 4, true, [], true⟩

theorem exampleSurface_loadable : exampleSurface.Loadable (fun q => q) := by
  refine ⟨by decide +kernel, by decide +kernel, by decide +kernel, ?_, rfl⟩
  unfold Sorted
  decide +kernel

example : (readSurface (dumpSurface (fun q => q) exampleSurface ++ [[.word "END".toList]])).1.comps
    = exampleSurface.comps ∧
    ((readSurface (dumpSurface (fun q => q) exampleSurface
      ++ [[.word "END".toList]])).1.charges.map SurfCharge.gMap)
    = [[(-1, (1/2, 1/3, 1/4)), (1, (2, 3, 4)), (2, (0, 0, 1))]] := by decide +kernel

/-- C129 is violated: whether the viscosity of the diffuse layer is calculated is not written. After
a restart it is not, for every surface that can be read. No error is reported. -/
theorem surface_viscosity_violated (rnd : ℚ → ℚ) (x : Surface) (hx : x.Loadable rnd)
    (_hv : x.calcViscosity = true) (ls : List Line) (he : BlockEnd ls) :
    (readSurface (dumpSurface rnd x ++ ls)).2.1 = 0 ∧
      (readSurface (dumpSurface rnd x ++ ls)).1.calcViscosity = false := by
  rw [hx.read ls he]
  exact ⟨rfl, rfl⟩

example : exampleSurface.calcViscosity = true ∧
    (readSurface (dumpSurface (fun q => q) exampleSurface ++ [])).1.calcViscosity = false :=
  ⟨rfl, (surface_viscosity_violated _ _ exampleSurface_loadable rfl [] (Or.inl rfl)).2⟩

/-- A surface with lanthanum on it. -/
def laSurface : Surface :=
  ⟨⟨1, 1, []⟩, 2, 0, false, false, 0, 0, 1, 4/5,
    [⟨"Hfo_wOH".toList, 0, 1/5, -3, 0, [], [], 0, 0, "Hfo".toList, "Hfo_w".toList,
        [("Hfo_w".toList, 1/5), ("La".toList, 1/2), ("O".toList, 1/5)]⟩], [], false, true, 0, false,
    -999, false, [], false⟩

/-- C129 is violated: the line `La 0.5` in the totals of a component is taken for the option `-la`,
so the lanthanum on the surface is lost and its amount replaces the log activity of the component.
No error is reported. -/
theorem surface_lanthanum_violated :
    (readSurface (dumpSurface (fun q => q) laSurface)).2 = (0, []) ∧
      (readSurface (dumpSurface (fun q => q) laSurface)).1.comps.map (fun c => (c.la, c.totals))
        = [(1/2, [("Hfo_w".toList, 1/5), ("O".toList, 1/5)])] ∧
      laSurface.comps.map (fun c => (c.la, find c.totals "La".toList)) = [(-3, some (1/2))] := by
  decide +kernel

/-- C129 is violated for every surface with workspace totals (first name not an option): the reader
reports an error at the first line of `-totals` and leaves the rest of the block unread. -/
theorem surface_totals_violated (rnd : ℚ → ℚ) (x : Surface)
    (hx : ({ x with totals := [] } : Surface).Loadable rnd) (n : Name) (v : ℚ) (nd : ND)
    (ht : x.totals = (n, v) :: nd) (hp : Plain surfaceOpts n) (ls : List Line) :
    (readSurface (dumpSurface rnd x ++ ls)).2 = (1, dumpND rnd x.totals ++ ls) := by
  rw [dumpSurface_eq, List.cons_append, List.append_assoc]
  unfold readSurface
  dsimp only
  rw [readHead_headLine, feed_goes (goes_surfBody rnd x _
    (fun c hc => ⟨(hx.comps c hc).1, (hx.comps c hc).2.1, (hx.comps c hc).2.2⟩) hx.formulas
    (fun c hc => ⟨(hx.charges c hc).1, (hx.charges c hc).2.1, (hx.charges c hc).2.2⟩) hx.names), ht]
  unfold surfaceStep
  rw [dumpND, List.map_cons, List.cons_append,
    feed_stop (s' := ((⟨x.collected rnd ⟨x.head.nUser, x.head.nUser, x.head.desc⟩, none, [], 0⟩ :
      RS Surface).error, none))]
  · rfl
  · simp only [nestStep, outerStep, getOption_plain _ hp]

/-- The hypotheses of `surface_totals_violated` are met. -/
example : (readSurface (dumpSurface (fun q => q)
    { exampleSurface with totals := [("Ca".toList, 1)] })).2
      = (1, [[.word "Ca".toList, .num 1]]) :=
  (surface_totals_violated (fun q => q) { exampleSurface with totals := [("Ca".toList, 1)] }
    exampleSurface_loadable "Ca".toList 1 [] rfl (by decide +kernel) []) ▸ by simp [dumpND]

end Verif.Raw
