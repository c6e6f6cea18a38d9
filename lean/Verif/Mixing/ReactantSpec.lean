import Verif.Mixing.Reactants
import Verif.Mixing.SolutionSpec

/-! # Amounts in reactants -/

namespace Verif.Mixing

open Verif.OMap Verif.NameDouble

/-- Sum of `A` over the members of a list chosen by `q`. -/
def sumBy {C : Type} (q : C → Bool) (A : C → ℚ) (l : List C) : ℚ := ((l.filter q).map A).sum

/-- Moles of element `el` on the exchanger with formula `f`. -/
def exchAmount (f el : Name) (e : Exchange) : ℚ :=
  sumBy (fun c => c.formula = f) (fun c => val c.totals el) e

/-- Charge balance of the exchanger with formula `f`. -/
def exchCharge (f : Name) (e : Exchange) : ℚ :=
  sumBy (fun c => c.formula = f) ExchComp.chargeBalance e

/-- Amount `A` (moles, or moles at other times) of the phase `n`. -/
def ppAmount (A : PPComp → ℚ) (n : Name) (e : PPAssemblage) : ℚ := (find e.comps n).elim 0 A

/-- Amount `A` of the kinetic reactant `n`. -/
def kinAmount (A : KinComp → ℚ) (n : Name) (e : Kinetics) : ℚ :=
  sumBy (fun c => c.rateName = n) A e.comps

/-- Amount `A` of the component `n` (in any spelling) of a solid solution. -/
def ssCompAmount (A : SSComp → ℚ) (n : Name) (s : SS) : ℚ :=
  sumBy (fun c => sameNocase c.name n) A s.comps

/-- Amount `A` of the component `n` of the solid solution `s`. -/
def ssAmount (A : SSComp → ℚ) (s n : Name) (e : SSAssemblage) : ℚ :=
  (find e s).elim 0 (ssCompAmount A n)

/-- Moles of element `el` on the surface sites with formula `f`. -/
def surfAmount (f el : Name) (e : Surface) : ℚ :=
  sumBy (fun c => c.formula = f) (fun c => val c.totals el) e.comps

/-- Amount `A` of the surface sites with formula `f`. -/
def siteAmount (A : SurfComp → ℚ) (f : Name) (e : Surface) : ℚ :=
  sumBy (fun c => c.formula = f) A e.comps

/-- Amount `A` of the surface `n`. -/
def chargeAmount (A : SurfCharge → ℚ) (n : Name) (e : Surface) : ℚ :=
  sumBy (fun c => c.name = n) A e.charges

/-- Moles of element `el` in the diffuse layer of the surface `n`. -/
def diffuseAmount (n el : Name) (e : Surface) : ℚ :=
  sumBy (fun c => c.name = n) (fun c => val c.diffuse el) e.charges

/-- Moles of the gas `n`. -/
def gasAmount (A : GasComp → ℚ) (n : Name) (g : GasPhase) : ℚ :=
  sumBy (fun c => c.phaseName = n) A g.comps

/-! ## What the classes guarantee

Maps are ordered, map keys are the names of the entries, names are not empty. -/

def Exchange.Valid (e : Exchange) : Prop := ∀ c ∈ e, c.formula ≠ [] ∧ Sorted c.totals

structure PPAssemblage.Valid (e : PPAssemblage) : Prop where
  sorted : Sorted e.comps
  keyed : ∀ q ∈ e.comps, q.2.name = q.1
  named : ∀ q ∈ e.comps, q.1 ≠ []
  elts : Sorted e.eltList

def Kinetics.Valid (e : Kinetics) : Prop := ∀ c ∈ e.comps, c.rateName ≠ []

structure SSAssemblage.Valid (e : SSAssemblage) : Prop where
  sorted : Sorted e
  keyed : ∀ q ∈ e, q.2.name = q.1
  named : ∀ q ∈ e, q.1 ≠ []

structure Surface.Valid (e : Surface) : Prop where
  comps : ∀ c ∈ e.comps, c.formula ≠ [] ∧ Sorted c.totals
  charges : ∀ c ∈ e.charges, c.name ≠ [] ∧ Sorted c.diffuse

def GasPhase.Valid (g : GasPhase) : Prop := ∀ c ∈ g.comps, c.phaseName ≠ []

end Verif.Mixing
