import Verif.Base
import Verif.NameDouble.Model

/-!
# Mixing of solutions (`cxxMix`, `cxxSolution`)

Files are in `/repo/src/IPhreeqcPhast/IPhreeqc/phreeqcpp/`. Not modelled: `master_activity`
(a logarithmic average of starting guesses for the solver), `log_gamma_map`,
`log_molalities_map` (same code as `species_map`), uncertainties of isotope ratios,
the externally imposed `potV`, descriptions and flags.
-/

namespace Verif.Mixing

open Verif.OMap Verif.NameDouble

/-- `cxxMix::mixComps`, a `std::map<int, LDBLE>` (cxxMix.h:26-56). -/
abbrev Mix := SMap Int ℚ

/-- `cxxMix::Add` (cxxMix.h:26-37): accumulates. -/
def Mix.add (m : Mix) (n : Int) (f : ℚ) : Mix :=
  match find m n with
  | some c => OMap.insert m n (c + f)
  | none   => OMap.insert m n f

/-- `cxxMix::Multiply` (cxxMix.h:38-44). -/
def Mix.multiply (m : Mix) (x : ℚ) : Mix := m.map (fun p => (p.1, p.2 * x))

/-- `cxxSolutionIsotope`: the members changed by mixing. -/
structure Isotope where
  total : ℚ
  ratio : ℚ
  deriving DecidableEq, Repr

/-- `cxxSolution` (Solution.h): the members changed by mixing, except those listed above. -/
structure Solution where
  tc : ℚ
  ph : ℚ
  pe : ℚ
  mu : ℚ
  ah2o : ℚ
  density : ℚ
  viscosity : ℚ
  viscos0 : ℚ
  patm : ℚ
  totalH : ℚ
  totalO : ℚ
  cb : ℚ
  massWater : ℚ
  solnVol : ℚ
  totalAlkalinity : ℚ
  totals : ND
  gamma : ND
  isotopes : SMap Name Isotope
  species : SMap Int ℚ
  deriving DecidableEq, Repr

/-- `cxxSolution::zero` (Solution.cxx:1387-1409) followed by `ah2o = 0`
(107-120). -/
def Solution.zero : Solution :=
  { tc := 0, ph := 0, pe := 0, mu := 0, ah2o := 0, density := 1, viscosity := 1, viscos0 := 1,
    patm := 1, totalH := 0, totalO := 0, cb := 0, massWater := 0, solnVol := 0,
    totalAlkalinity := 0, totals := [], gamma := [], isotopes := [], species := [] }

/-- One isotope of `cxxSolution::Add_isotopes` (Solution.cxx:1544-1573). The name of an isotope
is its key. -/
def addIsotope (intensive extensive : ℚ) (m : SMap Name Isotope) (p : Name × Isotope) :
    SMap Name Isotope :=
  match find m p.1 with
  | some i => OMap.insert m p.1
      ⟨i.total + p.2.total * extensive, i.ratio + p.2.ratio * intensive⟩
  | none => OMap.insert m p.1 ⟨p.2.total * extensive, p.2.ratio⟩

/-- One species of the loop in `cxxSolution::add` (Solution.cxx:1446-1456). -/
def addSpecies (f1 f2 : ℚ) (m : SMap Int ℚ) (p : Int × ℚ) : SMap Int ℚ :=
  match find m p.1 with
  | some c => OMap.insert m p.1 (c * f1 + p.2 * f2)
  | none   => OMap.insert m p.1 p.2

/-- `cxxSolution::add` (Solution.cxx:1412-1484). If both water masses add up to zero the code
divides zero by zero and every intensive member becomes NaN; this is the outcome `.ub`. -/
def Solution.add (s a : Solution) (x : ℚ) : Out Solution :=
  if x = 0 then .ok s
  else if s.massWater + a.massWater * x = 0 then .ub
  else
    let f1 := s.massWater / (s.massWater + a.massWater * x)
    let f2 := a.massWater * x / (s.massWater + a.massWater * x)
    .ok { tc := f1 * s.tc + f2 * a.tc
          ph := f1 * s.ph + f2 * a.ph
          pe := f1 * s.pe + f2 * a.pe
          mu := f1 * s.mu + f2 * a.mu
          ah2o := f1 * s.ah2o + f2 * a.ah2o
          density := f1 * s.density + f2 * a.density
          viscosity := f1 * s.viscosity + f2 * a.viscosity
          viscos0 := f1 * s.viscos0 + f2 * a.viscos0
          patm := f1 * s.patm + f2 * a.patm
          totalH := s.totalH + a.totalH * x
          totalO := s.totalO + a.totalO * x
          cb := s.cb + a.cb * x
          massWater := s.massWater + a.massWater * x
          solnVol := s.solnVol + a.solnVol * x
          totalAlkalinity := s.totalAlkalinity + a.totalAlkalinity * x
          totals := addExtensive s.totals a.totals x
          gamma := addIntensive s.gamma a.gamma f1 f2
          isotopes := a.isotopes.foldl (addIsotope f2 x) s.isotopes
          species := a.species.foldl (addSpecies f1 f2) s.species }

/-- One step of the mixing constructor: a number without a solution gives an error message
and is skipped (Solution.cxx:134-148). -/
def Solution.mixStep (sols : Int → Option Solution) (s : Solution) (p : Int × ℚ) :
    Out Solution :=
  match sols p.1 with
  | none   => .ok s
  | some a => s.add a p.2

/-- `cxxSolution::cxxSolution(solutions, mix, n_user, io)` (Solution.cxx:107-152). -/
def Solution.mix (sols : Int → Option Solution) (m : Mix) : Out Solution :=
  m.foldlM (Solution.mixStep sols) Solution.zero

/-- `cxxSolution::multiply` (Solution.cxx:1487-1502). -/
def Solution.multiply (s : Solution) (x : ℚ) : Solution :=
  if x = 0 ∨ x = 1 then s
  else { s with totalH := s.totalH * x, totalO := s.totalO * x, cb := s.cb * x
                massWater := s.massWater * x, solnVol := s.solnVol * x
                totalAlkalinity := s.totalAlkalinity * x, totals := NameDouble.multiply s.totals x
                isotopes := s.isotopes.map (fun p => (p.1, { p.2 with total := p.2.total * x })) }

end Verif.Mixing
