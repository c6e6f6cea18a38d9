import Verif.Mixing.Solution
import Verif.NameDouble.Spec

/-! # Specification of mixed solutions -/

namespace Verif.Mixing

open Verif.OMap Verif.NameDouble

/-- The solutions of a mixture that exist, with their factors. -/
def parts {E : Type} (ents : Int → Option E) (m : Mix) : List (E × ℚ) :=
  m.filterMap (fun p => (ents p.1).map (fun e => (e, p.2)))

/-- Sum of a quantity over the parts, times the factors. -/
def wsum {E : Type} (X : E → ℚ) (ps : List (E × ℚ)) : ℚ := (ps.map (fun p => p.2 * X p.1)).sum

/-- Members of a solution proportional to its size. -/
def extensives : List (Solution → ℚ) :=
  [Solution.totalH, Solution.totalO, Solution.cb, Solution.massWater, Solution.solnVol,
   Solution.totalAlkalinity]

/-- Members of a solution independent of its size. -/
def intensives : List (Solution → ℚ) :=
  [Solution.tc, Solution.ph, Solution.pe, Solution.mu, Solution.ah2o, Solution.density,
   Solution.viscosity, Solution.viscos0, Solution.patm]

/-- Concentration of a species; a species that is not there has none. -/
def speciesOf (k : Int) (s : Solution) : ℚ := (find s.species k).elim 0 id

/-- Moles of an isotope. -/
def isotopeTotal (k : Name) (s : Solution) : ℚ := (find s.isotopes k).elim 0 Isotope.total

/-- The maps of a solution are ordered by key (a `std::map` is). -/
structure Solution.Ordered (s : Solution) : Prop where
  totals : Sorted s.totals
  isotopes : Sorted s.isotopes
  species : Sorted s.species

/-- The mean of an intensive quantity weighted by the mass of water in each part. -/
def waterMean (X : Solution → ℚ) (ps : List (Solution × ℚ)) : ℚ :=
  wsum (fun s => s.massWater * X s) ps / wsum Solution.massWater ps

end Verif.Mixing
