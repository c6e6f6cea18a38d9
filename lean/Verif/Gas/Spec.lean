import Verif.Gas.Model
import Verif.Conc.Spec

/-! # What the gas functions should do -/

namespace Verif.Gas

open Verif.Mapping Verif.Grid Verif.Ranges Verif.OMap Verif.NameDouble Verif.Mixing Verif.State
open Verif.Conc (Primary)

/-- Two names that PHREEQC takes for one phase. -/
def SameName (a b : Name) : Prop := a.map Char.toLower = b.map Char.toLower

/-- No phase occurs twice. -/
def DistinctNames (l : List Name) : Prop := l.Pairwise (fun a b => ¬ SameName a b)

/-- The gas phase has `x` moles of component `n`. -/
def HasMoles (g : GasPhase) (n : Name) (x : ℚ) : Prop :=
  ∃ c ∈ g.comps, SameName c.phaseName n ∧ c.moles = x

/-- The gas phase has no component `n`. -/
def Lacks (g : GasPhase) (n : Name) : Prop := ∀ c ∈ g.comps, ¬ SameName c.phaseName n

/-- No component of a gas phase is listed twice. -/
def Proper (w : Nat → GasMap) : Prop :=
  ∀ n j e, find (w n) j = some e → DistinctNames (e.val.comps.map GasComp.phaseName)

/-- The entry for component `k` and reaction cell `j` of an array over grid cells. -/
def Given (g : List Int) (nxyz : Nat) (v : List ℚ) (j : Int) (k : Nat) (x : ℚ) : Prop :=
  ∃ p, Primary g j p ∧ v[k * nxyz + p]? = some x

end Verif.Gas
