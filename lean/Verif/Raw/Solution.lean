import Verif.Raw.Parser

/-!
# `SOLUTION_RAW`

Model of the writing and reading of a solution
(`/repo/src/IPhreeqcPhast/IPhreeqc/phreeqcpp/Solution.cxx`, `SolutionIsotope.cxx`). The reader is
the one compiled without `USE_REVISED_READ_RAW` (Solution.cxx:718-1200), on a new object, so that
the update of activities after the loop (1174-1197) has no effect.
-/

namespace Verif.Raw

open Verif.OMap Verif.NameDouble

/-- `cxxSolutionIsotope` without the isotope name, which is not written. -/
structure Isotope where
  number : ℚ
  elt : Name
  total : ℚ
  ratio : ℚ
  uncertaintyDefined : Bool
  uncertainty : ℚ
  xUncertainty : ℚ
  coef : ℚ
  deriving DecidableEq

/-- `cxxSolutionIsotope::dump_raw` (SolutionIsotope.cxx:80-103). -/
def dumpIsotope (rnd : ℚ → ℚ) (i : Isotope) : List Line :=
  [optLine "isotope_number" [.num (rnd i.number)],
   optLine "elt_name" (if i.elt = [] then [] else [.word i.elt]),
   optLine "total" [.num (rnd i.total)],
   optLine "ratio" [.num (rnd i.ratio)],
   optLine "ratio_uncertainty_defined" [boolTok i.uncertaintyDefined]]
  ++ (if i.uncertaintyDefined then [optLine "ratio_uncertainty" [.num (rnd i.uncertainty)]] else [])
  ++ [optLine "x_ratio_uncertainty" [.num (rnd i.xUncertainty)], optLine "coef" [.num (rnd i.coef)]]

/-- `cxxSolution`; `isotopes` is a map from isotope names, here a list of pairs. -/
structure Solution where
  head : Head
  tc : ℚ
  patm : ℚ
  potV : ℚ
  totalH : ℚ
  totalO : ℚ
  cb : ℚ
  density : ℚ
  viscosity : ℚ
  viscos0 : ℚ
  totals : ND
  isotopes : List (Name × Isotope)
  ph : ℚ
  pe : ℚ
  mu : ℚ
  ah2o : ℚ
  massWater : ℚ
  solnVol : ℚ
  totalAlk : ℚ
  activities : ND
  gammas : ND
  speciesMap : SMap Int ℚ
  logGammaMap : SMap Int ℚ
  logMolalMap : SMap Int ℚ
  deriving DecidableEq

/-- A map by species number with its option, written only if it is not empty
(Solution.cxx:333-370). -/
def intMapLines (rnd : ℚ → ℚ) (w : String) (m : SMap Int ℚ) : List Line :=
  if m = [] then [] else optLine w [] :: dumpIntMap rnd m

/-- `cxxSolution::dump_raw` (Solution.cxx:233-372). -/
def dumpSolution (rnd : ℚ → ℚ) (x : Solution) : List Line :=
  [headLine "SOLUTION_RAW" x.head,
   optLine "temp" [.num (rnd x.tc)], optLine "pressure" [.num (rnd x.patm)],
   optLine "potential" [.num (rnd x.potV)], optLine "total_h" [.num (rnd x.totalH)],
   optLine "total_o" [.num (rnd x.totalO)], optLine "cb" [.num (rnd x.cb)],
   optLine "density" [.num (rnd x.density)], optLine "viscosity" [.num (rnd x.viscosity)],
   optLine "viscos_0" [.num (rnd x.viscos0)], optLine "totals" []]
  ++ dumpND rnd x.totals
  ++ x.isotopes.flatMap (fun p => optLine "Isotope" [] :: dumpIsotope rnd p.2)
  ++ [optLine "pH" [.num (rnd x.ph)], optLine "pe" [.num (rnd x.pe)],
      optLine "mu" [.num (rnd x.mu)], optLine "ah2o" [.num (rnd x.ah2o)],
      optLine "mass_water" [.num (rnd x.massWater)], optLine "soln_vol" [.num (rnd x.solnVol)],
      optLine "total_alkalinity" [.num (rnd x.totalAlk)], optLine "activities" []]
  ++ dumpND rnd x.activities
  ++ [optLine "gammas" []] ++ dumpND rnd x.gammas
  ++ intMapLines rnd "species_map" x.speciesMap
  ++ intMapLines rnd "log_gamma_map" x.logGammaMap
  ++ intMapLines rnd "log_molalities_map" x.logMolalMap

/-- `cxxSolution::vopts` (Solution.cxx:1763-1794). -/
def solutionOpts : List Name :=
  ["totals", "activities", "gammas", "isotopes", "temp", "tc_avoid_conflict_with_technetium",
   "temperature", "ph", "pe", "mu", "ionic_strength", "ah2o", "activity_water", "total_h",
   "total_o", "mass_water", "mass_h2o", "total_alkalinity", "total_alk", "cb", "charge_balance",
   "density", "pressure", "soln_vol", "species_map", "log_gamma_map", "potential",
   "log_molalities_map", "viscosity", "viscos_0"].map String.toList

/-- The cases of `cxxSolution::read_raw` (Solution.cxx:770-1102). The branch of `-isotope` with a
name on the line (Solution.cxx:824-830) is not modelled: `dump_raw` writes no name there. -/
def solutionAct (n : Nat) (rest : List Tok) (s : RS Solution) : RS Solution :=
  match n with
  | 0 => (readPair (fun w q x => { x with totals := mergeEntry x.totals (w, q) }) rest s).setSave
      (some 0)
  | 1 => (readPair (fun w q x => { x with activities := insert x.activities w q }) rest s).setSave
      (some 1)
  | 2 => (readPair (fun w q x => { x with gammas := insert x.gammas w q }) rest s).setSave (some 2)
  | 3 => s.error.setSave none
  | 4 => ((readNum (fun q x => { x with tc := q }) 25 rest s).seen 4).setSave none
  | 5 => ((readNum (fun q x => { x with tc := q }) 25 rest s).seen 4).setSave none
  | 6 => ((readNum (fun q x => { x with tc := q }) 25 rest s).seen 4).setSave none
  | 7 => ((readNum (fun q x => { x with ph := q }) 7 rest s).seen 7).setSave none
  | 8 => ((readNum (fun q x => { x with pe := q }) 4 rest s).seen 8).setSave none
  | 9 => ((readNum (fun q x => { x with mu := q }) (1/10000000) rest s).seen 9).setSave none
  | 10 => ((readNum (fun q x => { x with mu := q }) (1/10000000) rest s).seen 9).setSave none
  | 11 => ((readNum (fun q x => { x with ah2o := q }) 1 rest s).seen 11).setSave none
  | 12 => ((readNum (fun q x => { x with ah2o := q }) 1 rest s).seen 11).setSave none
  | 13 => ((readNum (fun q x => { x with totalH := q }) (1111/10) rest s).seen 13).setSave none
  | 14 => ((readNum (fun q x => { x with totalO := q }) (5555/100) rest s).seen 14).setSave none
  | 15 => ((readNum (fun q x => { x with massWater := q }) 1 rest s).seen 15).setSave none
  | 16 => ((readNum (fun q x => { x with massWater := q }) 1 rest s).seen 15).setSave none
  | 17 => ((readNum (fun q x => { x with totalAlk := q }) 0 rest s).seen 17).setSave none
  | 18 => ((readNum (fun q x => { x with totalAlk := q }) 0 rest s).seen 17).setSave none
  | 19 => ((readNum (fun q x => { x with cb := q }) 0 rest s).seen 19).setSave none
  | 20 => ((readNum (fun q x => { x with cb := q }) 0 rest s).seen 19).setSave none
  | 21 => (readNum (fun q x => { x with density := q }) 1 rest s).setSave none
  | 22 => (readNum (fun q x => { x with patm := q }) 1 rest s).setSave none
  | 23 => (readNum (fun q x => { x with solnVol := q }) 1 rest s).setSave none
  | 24 => (readIntPair (fun i q x => { x with speciesMap := insert x.speciesMap i q }) rest
      s).setSave (some 24)
  | 25 => (readIntPair (fun i q x => { x with logGammaMap := insert x.logGammaMap i q }) rest
      s).setSave (some 25)
  | 26 => (readNum (fun q x => { x with potV := q }) 0 rest s).setSave none
  | 27 => (readIntPair (fun i q x => { x with logMolalMap := insert x.logMolalMap i q }) rest
      s).setSave (some 27)
  | 28 => (readNum (fun q x => { x with viscosity := q }) 1 rest s).setSave none
  | 29 => (readNum (fun q x => { x with viscos0 := q }) 1 rest s).setSave none
  | _ => s

/-- The loop of `cxxSolution::read_raw` (Solution.cxx:748-1106): unknown input is reported and
skipped (Solution.cxx:762-768). -/
def solutionStep : Line → RS Solution → Res (RS Solution) :=
  flatStep solutionOpts solutionAct (fun s => .go s.error)

/-- Default `cxxSolution` (Solution.cxx:31-59). -/
def newSolution (h : Head) : Solution :=
  ⟨h, 25, 1, 0, 1111/10, 5555/100, 0, 1, 1, 1, [], [], 7, 4, 1/10000000, 1, 1, 1, 0, [], [], [],
    [], []⟩

/-- `cxxSolution::read_raw` (Solution.cxx:718-1200) on a new object: the object, the number of
errors and the lines left. Required members: Solution.cxx:1107-1172. -/
def readSolution : List Line → Solution × Nat × List Line
  | [] => (newSolution ⟨1, 1, []⟩, 1, [])
  | h :: ls =>
    let r := feed solutionStep ls
      ⟨newSolution (readHead h), none, [4, 7, 8, 9, 11, 13, 14, 19, 15, 17], 0⟩
    (r.1.check.val, r.1.check.errs, r.2)

end Verif.Raw
