import Verif.Raw.SolutionLemmas

/-!
# Restart of a solution from a dump file
-/

namespace Verif.Raw

open Verif.OMap Verif.NameDouble

/-- A solution whose lists are maps in the order of the names, none of the names being taken for
an option of `SOLUTION_RAW` (so none is `Totals`, `pH`, `Density` and so on). -/
structure Solution.Loadable (x : Solution) : Prop where
  totals : ListOk solutionOpts x.totals
  activities : ListOk solutionOpts x.activities
  gammas : ListOk solutionOpts x.gammas
  species : Sorted x.speciesMap
  logGamma : Sorted x.logGammaMap
  logMolal : Sorted x.logMolalMap

theorem isoErrs_sum (l : List (Name × Isotope)) :
    (l.map (fun p => isoErrs p.2)).sum
      = 8 * l.length + l.countP (fun p => p.2.uncertaintyDefined) := by
  induction l with
  | nil => rfl
  | cons p l ih =>
    rw [List.map_cons, List.sum_cons, ih, List.length_cons, List.countP_cons]
    unfold isoErrs
    split <;> omega

/-- C123. For every solution that meets the conditions, and whatever follows in the file, reading
the dumped text ends at the following keyword and gives every scalar, the activities, the
activity coefficients and the maps by species number as printed. A total is given as printed
unless its name is the element of a valence state in the list short of one character; such a total
is lost. The isotopes are lost, with eight or nine errors each; there are no other errors. -/
theorem solution_restart_partial (rnd : ℚ → ℚ) (x : Solution) (hx : x.Loadable)
    (ls : List Line) (he : BlockEnd ls) :
    ∃ y, readSolution (dumpSolution rnd x ++ ls)
        = (y, 8 * x.isotopes.length + x.isotopes.countP (fun p => p.2.uncertaintyDefined), ls) ∧
      y.head.nUser = x.head.nUser ∧ y.head.nUserEnd = x.head.nUser ∧ y.head.desc = x.head.desc ∧
      y.tc = rnd x.tc ∧ y.patm = rnd x.patm ∧ y.potV = rnd x.potV ∧ y.totalH = rnd x.totalH ∧
      y.totalO = rnd x.totalO ∧ y.cb = rnd x.cb ∧ y.density = rnd x.density ∧
      y.viscosity = rnd x.viscosity ∧ y.viscos0 = rnd x.viscos0 ∧ y.ph = rnd x.ph ∧
      y.pe = rnd x.pe ∧ y.mu = rnd x.mu ∧ y.ah2o = rnd x.ah2o ∧
      y.massWater = rnd x.massWater ∧ y.solnVol = rnd x.solnVol ∧ y.totalAlk = rnd x.totalAlk ∧
      y.activities = x.activities.map (fun p => (p.1, rnd p.2)) ∧
      y.gammas = x.gammas.map (fun p => (p.1, rnd p.2)) ∧
      y.speciesMap = x.speciesMap.map (fun p => (p.1, rnd p.2)) ∧
      y.logGammaMap = x.logGammaMap.map (fun p => (p.1, rnd p.2)) ∧
      y.logMolalMap = x.logMolalMap.map (fun p => (p.1, rnd p.2)) ∧
      y.isotopes = [] ∧ Sorted y.totals ∧
      (∀ k, ¬ Shadowed x.totals k → find y.totals k = (find x.totals k).map rnd) ∧
      (∀ k, Shadowed x.totals k → find y.totals k = none) := by
  have hm := mergeAll_spec rnd x.totals hx.totals.1
  have hr := readSolution_dump rnd x ls hx.totals.2 hx.activities hx.gammas hx.species hx.logGamma
    hx.logMolal he
  rw [isoErrs_sum] at hr
  exact ⟨_, hr, rfl, rfl, rfl, rfl, rfl, rfl, rfl, rfl, rfl, rfl, rfl, rfl, rfl, rfl, rfl, rfl, rfl,
    rfl, rfl, rfl, rfl, rfl, rfl, rfl, rfl, hm.1, fun k => (hm.2 k).2, fun k => (hm.2 k).1⟩

/-- C123. With no isotopes and no total shadowed by a valence state the totals are the printed
list, and dumping again gives the same text. -/
theorem solution_redump (rnd : ℚ → ℚ) (hr : ∀ q, rnd (rnd q) = rnd q) (x y : Solution)
    (hx : x.Loadable) (hi : x.isotopes = [])
    (hk : ∀ k ∈ keys x.totals, ¬ Shadowed x.totals k) (ls : List Line) (he : BlockEnd ls)
    (h : readSolution (dumpSolution rnd x ++ ls) = (y, 0, ls)) :
    y.totals = x.totals.map (fun p => (p.1, rnd p.2)) ∧ dumpSolution rnd y = dumpSolution rnd x := by
  have ht : mergeAll rnd x.totals = rounded rnd x.totals := by
    obtain ⟨h1, h2⟩ := mergeAll_spec rnd x.totals hx.totals.1
    have hs : Sorted (rounded rnd x.totals) := by
      have := hx.totals.1
      unfold Sorted rounded at *
      rw [List.pairwise_map]; exact this
    refine OMap.ext h1 hs fun k => ?_
    have hf : ∀ l : ND, find (rounded rnd l) k = (find l k).map rnd := by
      intro l
      induction l with
      | nil => rfl
      | cons p l ih =>
        simp only [rounded, List.map_cons, find] at ih ⊢
        split
        · rfl
        · exact ih
    rw [hf]
    by_cases hsh : Shadowed x.totals k
    · have : k ∉ keys x.totals := fun hm => hk k hm hsh
      rw [(h2 k).1 hsh, (find_eq_none_iff _ _).mpr this]; rfl
    · exact (h2 k).2 hsh
  rw [readSolution_dump rnd x ls hx.totals.2 hx.activities hx.gammas hx.species hx.logGamma
    hx.logMolal he] at h
  have hy := (Prod.mk.inj h).1
  subst hy
  refine ⟨ht, ?_⟩
  have hd : ∀ nd : ND, dumpND rnd (rounded rnd nd) = dumpND rnd nd := by
    intro nd; simp [dumpND, rounded, List.map_map, Function.comp_def, hr]
  have hm : ∀ (w : String) (m : SMap Int ℚ),
      intMapLines rnd w (rounded rnd m) = intMapLines rnd w m := by
    intro w m
    cases m <;> simp [intMapLines, dumpIntMap, rounded, List.map_map, Function.comp_def, hr]
  simp only [dumpSolution, Solution.restored, ht, hd, hm, hr, hi, headLine]

/-- The hypotheses are met by a solution with valence states, an isotope and species maps. -/
def exampleSolution : Solution :=
  ⟨⟨3, 9, [.word "sea".toList, .word "water".toList]⟩, 20, 3/2, 1/8, 111, 55, -1/1000, 51/50, 9/10,
    1, [("C(4)".toList, 1/500), ("Fe(2)".toList, 1/7), ("Fe(3)".toList, 1/9), ("Na".toList, 1/2)],
    [("13C".toList, ⟨13, "C".toList, 1/500, -12, true, 1, 1, 1/500⟩)], 8, 5, 7/10, 49/50, 1, 1,
    1/400, [("Na".toList, -1/3)], [("Na+".toList, -1/5)], [(0, 1/2), (7, 1/11)], [(7, -1/4)], []⟩

theorem exampleSolution_loadable : exampleSolution.Loadable :=
  ⟨by decide +kernel, by decide +kernel, by decide +kernel, by unfold Sorted; decide +kernel,
    by unfold Sorted; decide +kernel, by unfold Sorted; decide +kernel⟩

example : (readSolution (dumpSolution (fun q => q) exampleSolution ++ [[.word "END".toList]])).1.totals
    = exampleSolution.totals := by decide +kernel

/-- A solution with fluoride and both valence states of iron. -/
def fluorideSolution : Solution :=
  { newSolution ⟨1, 1, []⟩ with
    totals := [("F".toList, 1/1000), ("Fe(2)".toList, 1/7), ("Fe(3)".toList, 1/9),
      ("Na".toList, 1/2)] }

/-- C123 is violated: the line `Fe(2)` erases the total of fluorine read before. No error is
reported. -/
theorem solution_fluoride_violated :
    (readSolution (dumpSolution (fun q => q) fluorideSolution)).2 = (0, []) ∧
      (readSolution (dumpSolution (fun q => q) fluorideSolution)).1.totals
        = [("Fe(2)".toList, 1/7), ("Fe(3)".toList, 1/9), ("Na".toList, 1/2)] ∧
      find fluorideSolution.totals "F".toList = some (1/1000) := by
  refine ⟨?_, ?_, ?_⟩ <;> decide +kernel

/-- C123 is violated for every solution with an isotope: it is lost, and errors are reported. -/
theorem solution_isotopes_violated (rnd : ℚ → ℚ) (x : Solution) (hx : x.Loadable)
    (hi : x.isotopes ≠ []) (ls : List Line) (he : BlockEnd ls) :
    (readSolution (dumpSolution rnd x ++ ls)).1.isotopes = [] ∧
      8 ≤ (readSolution (dumpSolution rnd x ++ ls)).2.1 := by
  rw [readSolution_dump rnd x ls hx.totals.2 hx.activities hx.gammas hx.species hx.logGamma
    hx.logMolal he, isoErrs_sum]
  refine ⟨rfl, ?_⟩
  have := List.length_pos_of_ne_nil hi
  dsimp only
  omega

/-- The hypotheses of `solution_isotopes_violated` are met. -/
example : (readSolution (dumpSolution (fun q => q) exampleSolution)).1.isotopes = [] :=
  (List.append_nil (dumpSolution (fun q => q) exampleSolution)) ▸
    (solution_isotopes_violated (fun q => q) exampleSolution exampleSolution_loadable
      (by decide +kernel) [] (Or.inl rfl)).1

end Verif.Raw
