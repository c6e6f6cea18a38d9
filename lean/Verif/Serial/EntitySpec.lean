import Verif.Serial.Cells

/-!
# What sending the reactants of a cell must give

`received` says for every kind of reactant what the receiving process holds; `Sendable` says
which reactants can be packed.
-/

namespace Verif.Serial

open Verif.OMap Verif.NameDouble Verif.Raw

/-- The description is lost and the range of numbers is the single number. -/
def Head.received (h : Head) : Head := ⟨h.nUser, h.nUser, []⟩

/-- Received solution: the viscosity of pure water is 1. -/
def SolState.received (x : SolState) : SolState :=
  { x with head := Head.received x.head, viscos0 := 1 }

/-- Received exchange assemblage. -/
def Exchange.received (x : Exchange) : Exchange := { x with head := Head.received x.head }

/-- Received gas phase. -/
def GasPhase.received (x : GasPhase) : GasPhase := { x with head := Head.received x.head }

/-- Received kinetic reactants. -/
def Kinetics.received (x : Kinetics) : Kinetics := { x with head := Head.received x.head }

/-- Received equilibrium phases. -/
def PPAssemblage.received (x : PPAssemblage) : PPAssemblage :=
  { x with head := Head.received x.head }

/-- Received solid solutions. -/
def SSAssemblage.received (x : SSAssemblage) : SSAssemblage :=
  { x with head := Head.received x.head }

/-- Received surface: the flag for the viscosity of the diffuse layer and the `z` maps are
lost. -/
def Surface.received (x : Surface) : Surface :=
  { x with
    head := Head.received x.head
    charges := x.charges.map (fun c => { c with zMap := [] })
    calcViscosity := false }

/-- Received temperatures or pressures. -/
def StepList.received (x : StepList) : StepList := { x with head := Head.received x.head }

/-- Exchange assemblages that can be packed. -/
def Exchange.Sendable (x : Exchange) : Prop :=
  (∀ c ∈ x.comps, GoodWord c.formula ∧ GoodWord c.phaseName ∧ GoodWord c.rateName ∧
    SendableND c.totals) ∧ SendableND x.totals

/-- Gas phases that can be packed: one of the two types. -/
def GasPhase.Sendable (x : GasPhase) : Prop :=
  (x.type = 0 ∨ x.type = 1) ∧ (∀ c ∈ x.comps, GoodWord c.name) ∧ SendableND x.totals

/-- Kinetic reactants that can be packed. -/
def Kinetics.Sendable (x : Kinetics) : Prop :=
  (∀ c ∈ x.comps, GoodWord c.name ∧ SendableND c.namecoef ∧ SendableND c.reaction) ∧
    SendableND x.totals

/-- Equilibrium phases that can be packed: the key of a phase is its name. -/
def PPAssemblage.Sendable (x : PPAssemblage) : Prop :=
  Sorted x.comps ∧ (∀ c ∈ x.comps, c.1 = c.2.name ∧ GoodWord c.2.name ∧
    GoodWord c.2.addFormula ∧ SendableND c.2.totals) ∧ SendableND x.eltList ∧ SendableND x.totals

/-- Solid solutions that can be packed: the key of a solid solution is its name. -/
def SSAssemblage.Sendable (x : SSAssemblage) : Prop :=
  Sorted x.sss ∧ (∀ c ∈ x.sss, c.1 = c.2.name ∧ GoodWord c.2.name ∧
    (∀ k ∈ c.2.comps, GoodWord k.name) ∧ SendableND c.2.totals) ∧ SendableND x.totals

/-- Surfaces that can be packed. -/
def Surface.Sendable (x : Surface) : Prop :=
  (∀ c ∈ x.comps, GoodWord c.formula ∧ GoodWord c.chargeName ∧ GoodWord c.phaseName ∧
    GoodWord c.rateName ∧ GoodWord c.masterElement ∧ SendableND c.totals) ∧
  (∀ c ∈ x.charges, GoodWord c.name ∧ SendableND c.dlTotals ∧ Sorted c.gMap ∧
    Sorted c.dlSpecies) ∧ SendableND x.totals

/-- Solutions that can be packed. -/
def SolState.Sendable (x : SolState) : Prop :=
  SendableND x.totals ∧ SendableND x.activities ∧ SendableND x.gammas ∧
  Sorted (κ := Name) x.isotopes ∧ (∀ i ∈ x.isotopes, GoodWord i.1 ∧ GoodWord i.2.elt) ∧
  Sorted x.speciesMap ∧ Sorted x.logGammaMap ∧ Sorted x.logMolalMap

/-- The reactants under the numbers `K` can be packed, and are filed under their own number. -/
def KindOk {α : Type} (head : α → Head) (S : α → Prop) (m : SMap Int α) (K : Int → Prop) : Prop :=
  ∀ k, K k → ∀ x, find m k = some x → (head x).nUser = k ∧ S x

/-- All kinds; temperatures and pressures only if they are sent. -/
structure Cells.Sendable (m : Cells) (t p : Bool) (K : Int → Prop) : Prop where
  solutions : KindOk (fun x : SolState => x.head) SolState.Sendable m.solutions K
  exchanges : KindOk Exchange.head Exchange.Sendable m.exchanges K
  gases : KindOk GasPhase.head GasPhase.Sendable m.gases K
  kinetics : KindOk Kinetics.head Kinetics.Sendable m.kinetics K
  pps : KindOk PPAssemblage.head PPAssemblage.Sendable m.pps K
  sss : KindOk SSAssemblage.head SSAssemblage.Sendable m.sss K
  surfaces : KindOk Surface.head Surface.Sendable m.surfaces K
  temperatures : t = true → KindOk StepList.head (fun _ => True) m.temperatures K
  pressures : p = true → KindOk StepList.head (fun _ => True) m.pressures K

/-- The number lies in one of the ranges. -/
def InRanges (ranges : List (Int × Int)) (n : Int) : Prop := ∃ r ∈ ranges, r.1 ≤ n ∧ n ≤ r.2

/-- Under the numbers `K` that the sender has, the receiver's map holds the sender's reactants;
all others are as before. -/
def Arrives {α : Type} (rec : α → α) (K : Int → Prop) (sender old new : SMap Int α) : Prop :=
  ∀ n, (K n → ∀ x, find sender n = some x → find new n = some (rec x)) ∧
    (¬ K n ∨ find sender n = none → find new n = find old n)

/-- What the maps of the receiver are afterwards. -/
structure AllArrive (t p : Bool) (K : Int → Prop) (sender old new : Cells) : Prop where
  solutions : Arrives SolState.received K sender.solutions old.solutions new.solutions
  exchanges : Arrives Exchange.received K sender.exchanges old.exchanges new.exchanges
  gases : Arrives GasPhase.received K sender.gases old.gases new.gases
  kinetics : Arrives Kinetics.received K sender.kinetics old.kinetics new.kinetics
  pps : Arrives PPAssemblage.received K sender.pps old.pps new.pps
  sss : Arrives SSAssemblage.received K sender.sss old.sss new.sss
  surfaces : Arrives Surface.received K sender.surfaces old.surfaces new.surfaces
  temperatures : Arrives StepList.received (fun n => t = true ∧ K n) sender.temperatures
    old.temperatures new.temperatures
  pressures : Arrives StepList.received (fun n => p = true ∧ K n) sender.pressures
    old.pressures new.pressures

end Verif.Serial
