import Verif.Conc.Model
import Verif.NameDouble.Spec
import Verif.Mapping.Props

/-!
# What concentrations mean

Specification vocabulary: unit definitions by cross-multiplication, and a well-formed module.
-/

namespace Verif.Conc

open Verif.OMap Verif.NameDouble Verif.Mapping Verif.Grid Verif.Ranges

/-- `m` mol/L is the concentration `c` in unit `u` for a substance of `g` grams per mole in a
solution of `dens` kg/L: `c` mg/L is `m * g * 1000`, and a mass fraction `c` is the mass
`m * g / 1000` kg in one litre, which weighs `dens` kg. -/
def IsMolar (u : Units) (dens g c m : ℚ) : Prop :=
  match u with
  | .mgL => c = m * g * 1000
  | .molL => c = m
  | .massFraction => c * dens = m * g / 1000

/-- Names of components that are neither water, hydrogen, oxygen nor charge: plain element
names, all different. -/
structure Elements (es : List Name) : Prop where
  nodup : es.Nodup
  good  : ∀ e ∈ es, (∀ c ∈ e, '(' < c) ∧ e ≠ "H".toList ∧ e ≠ "O".toList ∧ e ≠ "Charge".toList

/-- A module ready for transport: consistent mapping, arrays of the documented sizes, components
as made by `FindComponents`, positive gram formula weights, porosities, volumes and densities. -/
structure Ready (g : List Int) (s : CState) (es : List Name) : Prop where
  con   : Consistent g s.map
  glen  : g.length = s.map.nxyz
  comps : s.comps = (if s.h2o then ["H2O".toList] else []) ++
    ["H".toList, "O".toList, "Charge".toList] ++ es
  elems : Elements es
  gfwl  : s.gfw.length = s.comps.length
  gfw   : ∀ x ∈ s.gfw, 0 < x
  porl  : s.por.length = s.map.nxyz
  satl  : s.sat.length = s.map.nxyz
  rvl   : s.rv.length = s.map.nxyz
  densl : s.dens.length = s.map.nxyz
  por   : ∀ x ∈ s.por, 0 < x
  rv    : ∀ x ∈ s.rv, 0 < x
  dens  : ∀ x ∈ s.dens, 0 < x
  /-- every reaction cell has its solution in its worker -/
  sols  : ∀ n j, Owns s.map.ranges n j → ∃ x, s.sol n j = some x

/-- `i` is the first grid cell of reaction cell `j` under the mapping vector `g`. -/
def Primary (g : List Int) (j : Int) (i : Nat) : Prop :=
  g[i]? = some j ∧ ∀ i', g[i']? = some j → i ≤ i'

/-- Parameters of grid cell `i`. -/
structure Params (s : CState) (i : Nat) (por sat rv dens : ℚ) : Prop where
  por  : s.por[i]? = some por
  sat  : s.sat[i]? = some sat
  rv   : s.rv[i]? = some rv
  dens : s.dens[i]? = some dens

/-- Position of the first element among the components. -/
def fixed (h2o : Bool) : Nat := if h2o then 4 else 3

/-- Concentration and gram formula weight of component `k` in grid cell `i` of the array `t`. -/
def Entry (s : CState) (t : List ℚ) (i k : Nat) (c g : ℚ) : Prop :=
  t[k * s.map.nxyz + i]? = some c ∧ s.gfw[k]? = some g

/-- The solution `x'` holds the amounts given by the concentrations in a volume `vol` (litres)
of density `dens`. `ent k c g` says that component `k` has concentration `c` and gram formula
weight `g`. Water counts as two hydrogen and one oxygen; element amounts below 1e-25 mol, in
particular negative ones, are stored as zero. -/
structure Stored (h2o : Bool) (u : Units) (es : List Name) (ent : Nat → ℚ → ℚ → Prop)
    (dens vol : ℚ) (x x' : Soln) : Prop where
  water : ∃ w, (h2o = false → w = 0) ∧ (h2o = true → ∃ c g, ent 0 c g ∧ IsMolar u dens g c w) ∧
    (∃ c g m, ent (fixed h2o - 3) c g ∧ IsMolar u dens g c m ∧ x'.totalH = (m + 2 * w) * vol) ∧
    (∃ c g m, ent (fixed h2o - 2) c g ∧ IsMolar u dens g c m ∧ x'.totalO = (m + w) * vol)
  charge : ∃ c g m, ent (fixed h2o - 1) c g ∧ IsMolar u dens g c m ∧ x'.cb = m * vol
  elem : ∀ k e, es[k]? = some e → ∃ c g m, ent (fixed h2o + k) c g ∧ IsMolar u dens g c m ∧
    find x'.totals e = some (if m * vol < 1 / 10 ^ 25 then 0 else m * vol)
  only : ∀ e ∈ keys x'.totals, e ∈ es
  sorted : Sorted x'.totals
  massWater : x'.massWater * (111 / 2) = x'.totalO
  vol : x'.solnVol = x.solnVol
  density : x'.density = x.density

end Verif.Conc
