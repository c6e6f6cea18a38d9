import Verif.Mixing.Solution

/-!
# Mixing of exchangers, equilibrium phases, kinetics, solid solutions, surfaces and gas phases

Files are in `/repo/src/IPhreeqcPhast/IPhreeqc/phreeqcpp/`. Modelled are the members that
carry amounts, those that decide what is added, and the averaged ones. Error messages are
not modelled (they are printed and mixing goes on, `CONTINUE`). Assertions are off.
-/

namespace Verif.Mixing

open Verif.OMap Verif.NameDouble

/-- `strcmp_nocase(a, b) == 0` (utilities.cpp:866-890). -/
def sameNocase (a b : Name) : Bool := a.map Char.toLower = b.map Char.toLower

/-- The loop shared by `cxxExchange::add`, `cxxKinetics::add`, `cxxSS::add` and
`cxxSurface::add` for one component of the addee: the first component that matches is added
to, otherwise a scaled copy goes to the end (Exchange.cxx:335-347, cxxKinetics.cxx:432-451,
SS.cxx:455-482, Surface.cxx:603-619, 625-641). -/
def addComp {C : Type} (same : C → C → Bool) (add : C → C → ℚ → C) (mul : C → ℚ → C) (x : ℚ) :
    List C → C → List C
  | [], a => [mul a x]
  | c :: cs, a => if same c a then add c a x :: cs else c :: addComp same add mul x cs a

/-- All components of the addee. -/
def addComps {C : Type} (same : C → C → Bool) (add : C → C → ℚ → C) (mul : C → ℚ → C)
    (this addee : List C) (x : ℚ) : List C :=
  addee.foldl (addComp same add mul x) this

/-- The mixing constructors of these classes: numbers without an entity are skipped
(Exchange.cxx:53-64, PPassemblage.cxx:49-59, cxxKinetics.cxx:63-73, SSassemblage.cxx:49-59,
Surface.cxx:72-80). -/
def mixWith {E : Type} (add : E → E → ℚ → E) (init : E) (ents : Int → Option E) (m : Mix) : E :=
  m.foldl (fun acc p => match ents p.1 with | some e => add acc e p.2 | none => acc) init

/-! ## Exchangers -/

/-- `cxxExchComp` (ExchComp.h). -/
structure ExchComp where
  formula : Name
  totals : ND
  la : ℚ
  chargeBalance : ℚ
  phaseName : Name
  rateName : Name
  phaseProportion : ℚ
  deriving DecidableEq, Repr

/-- `cxxExchComp::add` (ExchComp.cxx:283-349). -/
def ExchComp.add (c a : ExchComp) (x : ℚ) : ExchComp :=
  if x = 0 then c
  else if a.formula = [] then c
  else
    let c1 := { c with formula := if c.formula = [] then a.formula else c.formula
                       totals := addExtensive c.totals a.totals x
                       la := c.la / 2 + a.la / 2
                       chargeBalance := c.chargeBalance + a.chargeBalance * x }
    if !sameNocase c1.phaseName a.phaseName then c1
    else
      let c2 := if c1.phaseName ≠ [] then
          { c1 with phaseProportion := c1.phaseProportion / 2 + a.phaseProportion / 2 } else c1
      if !sameNocase c2.rateName a.rateName then c2
      else if c2.rateName ≠ [] then
        { c2 with phaseProportion := c2.phaseProportion / 2 + a.phaseProportion / 2 }
      else c2

/-- `cxxExchComp::multiply` (ExchComp.cxx:351-356). -/
def ExchComp.mul (c : ExchComp) (x : ℚ) : ExchComp :=
  { c with totals := multiply c.totals x, chargeBalance := c.chargeBalance * x }

/-- `cxxExchange` (Exchange.h). -/
abbrev Exchange := List ExchComp

/-- `cxxExchange::add` (Exchange.cxx:325-350). -/
def Exchange.add (e a : Exchange) (x : ℚ) : Exchange :=
  if x = 0 then e
  else addComps (fun c b => b.formula = c.formula) ExchComp.add ExchComp.mul e a x

/-- `cxxExchange::cxxExchange(entities, mix, n_user, io)` (Exchange.cxx:41-65). -/
def Exchange.mix (ents : Int → Option Exchange) (m : Mix) : Exchange :=
  mixWith Exchange.add [] ents m

/-! ## Equilibrium phases -/

/-- `cxxPPassemblageComp` (PPassemblageComp.h). -/
structure PPComp where
  name : Name
  addFormula : Name
  si : ℚ
  siOrg : ℚ
  moles : ℚ
  delta : ℚ
  initialMoles : ℚ
  deriving DecidableEq, Repr

/-- The weights `f1`, `f2` used for averages (PPassemblageComp.cxx:353-364,
SurfaceComp.cxx:389-401, SurfaceCharge.cxx:460-472, GasComp.cxx:196-208). -/
def weights (ext1 ext2 : ℚ) : ℚ × ℚ :=
  if ext1 + ext2 ≠ 0 then (ext1 / (ext1 + ext2), ext2 / (ext1 + ext2)) else (1 / 2, 1 / 2)

/-- `cxxPPassemblageComp::add` (PPassemblageComp.cxx:343-385): with a different
`add_formula` nothing is added. -/
def PPComp.add (c a : PPComp) (x : ℚ) : PPComp :=
  if x = 0 then c
  else if a.name = [] then c
  else if c.addFormula ≠ a.addFormula then c
  else
    let w := weights c.moles (a.moles * x)
    { c with si := c.si * w.1 + a.si * w.2
             siOrg := c.siOrg * w.1 + a.siOrg * w.2
             moles := c.moles + a.moles * x
             delta := c.delta + a.delta * x
             initialMoles := c.initialMoles + a.initialMoles * x }

/-- `cxxPPassemblageComp::multiply` (PPassemblageComp.cxx:387-393). -/
def PPComp.mul (c : PPComp) (x : ℚ) : PPComp :=
  { c with moles := c.moles * x, delta := c.delta * x, initialMoles := c.initialMoles * x }

/-- `cxxPPassemblage` (PPassemblage.h): components by name, and the list of elements. -/
structure PPAssemblage where
  comps : SMap Name PPComp
  eltList : ND
  deriving DecidableEq, Repr

/-- One component in `cxxPPassemblage::add` (PPassemblage.cxx:284-306). -/
def PPAssemblage.addEntry (x : ℚ) (m : SMap Name PPComp) (p : Name × PPComp) : SMap Name PPComp :=
  match m.find? (fun q => q.2.name = p.2.name) with
  | some q => OMap.insert m q.1 (q.2.add p.2 x)
  | none   => OMap.insert m p.2.name (p.2.mul x)

/-- `cxxPPassemblage::add` (PPassemblage.cxx:277-309). -/
def PPAssemblage.add (e a : PPAssemblage) (x : ℚ) : PPAssemblage :=
  if x = 0 then e
  else { comps := a.comps.foldl (PPAssemblage.addEntry x) e.comps
         eltList := addExtensive e.eltList a.eltList x }

/-- `cxxPPassemblage::cxxPPassemblage(entities, mix, n_user, io)` (PPassemblage.cxx:38-60). -/
def PPAssemblage.mix (ents : Int → Option PPAssemblage) (m : Mix) : PPAssemblage :=
  mixWith PPAssemblage.add ⟨[], []⟩ ents m

/-! ## Kinetic reactants -/

/-- `cxxKineticsComp` (KineticsComp.h). -/
structure KinComp where
  rateName : Name
  m : ℚ
  m0 : ℚ
  moles : ℚ
  deriving DecidableEq, Repr

/-- `cxxKineticsComp::add` (KineticsComp.cxx:247-264). -/
def KinComp.add (c a : KinComp) (x : ℚ) : KinComp :=
  if x = 0 then c
  else if a.rateName = [] then c
  else { c with m := c.m + a.m * x, m0 := c.m0 + a.m0 * x, moles := c.moles + a.moles * x }

/-- `cxxKineticsComp::multiply` (KineticsComp.cxx:266-272). -/
def KinComp.mul (c : KinComp) (x : ℚ) : KinComp :=
  { c with m := c.m * x, m0 := c.m0 * x, moles := c.moles * x }

/-- `cxxKinetics` (cxxKinetics.h): components, and the list of time steps, which mixing takes
from the last part (cxxKinetics.cxx:453-461). -/
structure Kinetics where
  comps : List KinComp
  steps : List ℚ
  deriving DecidableEq, Repr

/-- `cxxKinetics::add` (cxxKinetics.cxx:423-462). -/
def Kinetics.add (e a : Kinetics) (x : ℚ) : Kinetics :=
  if x = 0 then e
  else { comps := addComps (fun c b => c.rateName = b.rateName) KinComp.add KinComp.mul
           e.comps a.comps x
         steps := a.steps }

/-- `cxxKinetics::cxxKinetics(entities, mix, n_user, io)` (cxxKinetics.cxx:46-74). -/
def Kinetics.mix (ents : Int → Option Kinetics) (m : Mix) : Kinetics :=
  mixWith Kinetics.add ⟨[], []⟩ ents m

/-! ## Solid solutions -/

/-- `cxxSScomp` (SScomp.h). -/
structure SSComp where
  name : Name
  moles : ℚ
  initialMoles : ℚ
  initMoles : ℚ
  delta : ℚ
  deriving DecidableEq, Repr

/-- The member updates of one component in `cxxSS::add` (SS.cxx:462-473). -/
def SSComp.add (c a : SSComp) (x : ℚ) : SSComp :=
  { c with initialMoles := c.initialMoles + a.initialMoles * x
           moles := c.moles + a.moles * x
           initMoles := c.initMoles + a.initMoles * x
           delta := c.delta + a.delta * x }

/-- `cxxSScomp::multiply` (SScomp.cxx:239-245): `init_moles` is not scaled. -/
def SSComp.mul (c : SSComp) (x : ℚ) : SSComp :=
  { c with moles := c.moles * x, delta := c.delta * x, initialMoles := c.initialMoles * x }

/-- `cxxSS` (SS.h): the members changed by mixing. -/
structure SS where
  name : Name
  comps : List SSComp
  deriving DecidableEq, Repr

/-- `cxxSS::add` (SS.cxx:446-484). -/
def SS.add (s a : SS) (x : ℚ) : SS :=
  if x = 0 then s
  else if a.name = [] then s
  else { s with comps := addComps (fun c b => sameNocase c.name b.name) SSComp.add SSComp.mul
                  s.comps a.comps x }

/-- `cxxSS::multiply` (SS.cxx:485-500). -/
def SS.mul (s : SS) (x : ℚ) : SS :=
  { s with comps := s.comps.map (fun c =>
      { c with initialMoles := c.initialMoles * x, moles := c.moles * x
               initMoles := c.initMoles * x, delta := c.delta * x }) }

/-- `cxxSSassemblage::SSs` (SSassemblage.h). -/
abbrev SSAssemblage := SMap Name SS

/-- One solid solution in `cxxSSassemblage::add` (SSassemblage.cxx:227-244). -/
def SSAssemblage.addEntry (x : ℚ) (m : SSAssemblage) (p : Name × SS) : SSAssemblage :=
  match find m p.1 with
  | some s => OMap.insert m p.1 (s.add p.2 x)
  | none   => OMap.insert m p.2.name (p.2.mul x)

/-- `cxxSSassemblage::add` (SSassemblage.cxx:218-245). -/
def SSAssemblage.add (e a : SSAssemblage) (x : ℚ) : SSAssemblage :=
  if x = 0 then e else a.foldl (SSAssemblage.addEntry x) e

/-- `cxxSSassemblage::cxxSSassemblage(entities, mix, n_user, io)` (SSassemblage.cxx:40-61). -/
def SSAssemblage.mix (ents : Int → Option SSAssemblage) (m : Mix) : SSAssemblage :=
  mixWith SSAssemblage.add [] ents m

/-! ## Surfaces -/

/-- `cxxSurfaceComp` (SurfaceComp.h). -/
structure SurfComp where
  formula : Name
  moles : ℚ
  totals : ND
  la : ℚ
  chargeBalance : ℚ
  phaseName : Name
  rateName : Name
  phaseProportion : ℚ
  deriving DecidableEq, Repr

/-- `cxxSurfaceComp::add` (SurfaceComp.cxx:368-449). -/
def SurfComp.add (c a : SurfComp) (x : ℚ) : SurfComp :=
  if x = 0 then c
  else if a.formula = [] then c
  else
    let w := weights c.moles (a.moles * x)
    let c1 := { c with formula := if c.formula = [] then a.formula else c.formula
                       moles := c.moles + a.moles * x
                       totals := addExtensive c.totals a.totals x
                       la := w.1 * c.la + w.2 * a.la
                       chargeBalance := c.chargeBalance + a.chargeBalance * x }
    if !sameNocase c1.phaseName a.phaseName then c1
    else
      let c2 := if c1.phaseName ≠ [] then
          { c1 with phaseProportion := c1.phaseProportion * w.1 + a.phaseProportion * w.2 }
        else c1
      if !sameNocase c2.rateName a.rateName then c2
      else if c2.rateName ≠ [] then
        { c2 with phaseProportion := c2.phaseProportion * w.1 + a.phaseProportion * w.2 }
      else c2

/-- `cxxSurfaceComp::multiply` (SurfaceComp.cxx:450-458). -/
def SurfComp.mul (c : SurfComp) (x : ℚ) : SurfComp :=
  { c with moles := c.moles * x, totals := multiply c.totals x
           chargeBalance := c.chargeBalance * x }

/-- `cxxSurfaceCharge` (SurfaceCharge.h). Capacitances, `la_psi`, `f_free` and
`DDL_viscosity`, averaged like `specific_area`, are left out. -/
structure SurfCharge where
  name : Name
  specificArea : ℚ
  grams : ℚ
  chargeBalance : ℚ
  massWater : ℚ
  diffuse : ND
  deriving DecidableEq, Repr

/-- `cxxSurfaceCharge::add` (SurfaceCharge.cxx:448-485). -/
def SurfCharge.add (c a : SurfCharge) (x : ℚ) : SurfCharge :=
  if x = 0 then c
  else if c.name = [] ∧ a.name = [] then c
  else
    let w := weights (c.specificArea * c.grams) (a.specificArea * a.grams * x)
    { c with specificArea := w.1 * c.specificArea + w.2 * a.specificArea
             grams := c.grams + a.grams * x
             chargeBalance := c.chargeBalance + a.chargeBalance * x
             massWater := c.massWater + a.massWater * x
             diffuse := addExtensive c.diffuse a.diffuse x }

/-- `cxxSurfaceCharge::multiply` (SurfaceCharge.cxx:487-494). -/
def SurfCharge.mul (c : SurfCharge) (x : ℚ) : SurfCharge :=
  { c with grams := c.grams * x, chargeBalance := c.chargeBalance * x
           massWater := c.massWater * x, diffuse := multiply c.diffuse x }

/-- `cxxSurface` (Surface.h): components and charges; the options taken over from the first
part (Surface.cxx:584-598) are left out. -/
structure Surface where
  comps : List SurfComp
  charges : List SurfCharge
  deriving DecidableEq, Repr

/-- `cxxSurface::add` (Surface.cxx:575-643). -/
def Surface.add (e a : Surface) (x : ℚ) : Surface :=
  if x = 0 then e
  else { comps := addComps (fun c b => b.formula = c.formula) SurfComp.add SurfComp.mul
           e.comps a.comps x
         charges := addComps (fun c b => b.name = c.name) SurfCharge.add SurfCharge.mul
           e.charges a.charges x }

/-- `cxxSurface::cxxSurface(entities, mix, n_user, io)` (Surface.cxx:49-81). -/
def Surface.mix (ents : Int → Option Surface) (m : Mix) : Surface :=
  mixWith Surface.add ⟨[], []⟩ ents m

/-! ## Gas phases -/

/-- `cxxGasComp` (GasComp.h). -/
structure GasComp where
  phaseName : Name
  pRead : ℚ
  moles : ℚ
  initialMoles : ℚ
  p : ℚ
  phi : ℚ
  f : ℚ
  deriving DecidableEq, Repr

/-- `cxxGasComp::add` (GasComp.cxx:187-218). -/
def GasComp.add (c a : GasComp) (x : ℚ) : GasComp :=
  if x = 0 then c
  else if a.phaseName = [] then c
  else
    let w := weights c.moles (a.moles * x)
    { c with pRead := c.pRead * w.1 + a.pRead * w.2
             moles := c.moles + a.moles * x
             initialMoles := c.initialMoles + a.initialMoles * x
             p := c.p * w.1 + a.p * w.2
             phi := c.phi * w.1 + a.phi * w.2
             f := c.f * w.1 + a.f * w.2 }

/-- `cxxGasComp::multiply` (GasComp.cxx:220-229). -/
def GasComp.mul (c : GasComp) (x : ℚ) : GasComp :=
  { c with pRead := c.pRead * x, moles := c.moles * x, initialMoles := c.initialMoles * x }

/-- `cxxGasPhase::type` (GasPhase.h). -/
inductive GasType
  | pressure
  | volume
  deriving DecidableEq, Repr

/-- `cxxGasPhase` (GasPhase.h). -/
structure GasPhase where
  type : GasType
  totalP : ℚ
  volume : ℚ
  vm : ℚ
  totalMoles : ℚ
  temperature : ℚ
  comps : List GasComp
  deriving DecidableEq, Repr

/-- One component of a part (GasPhase.cxx:128-141). -/
def GasPhase.addEntry (x : ℚ) (m : SMap Name GasComp) (a : GasComp) : SMap Name GasComp :=
  match find m a.phaseName with
  | some c => OMap.insert m a.phaseName (c.add a x)
  | none   => OMap.insert m a.phaseName (a.mul x)

/-- The loop of the mixing constructor (GasPhase.cxx:78-144). `g` is `this`, `first` the flag,
`cm` the map of components, `sum` the sum of the fractions. For parts of different types the
constructor returns before the components are stored (107-113). -/
def GasPhase.loop (ents : Int → Option GasPhase) (sum : ℚ) :
    Mix → GasPhase → Bool → SMap Name GasComp → GasPhase
  | [], g, _, cm => { g with comps := cm.map Prod.snd }
  | p :: m, g, first, cm =>
    match ents p.1 with
    | none => GasPhase.loop ents sum m g first cm
    | some e =>
      let cm' := e.comps.foldl (GasPhase.addEntry p.2) cm
      if first then
        GasPhase.loop ents sum m
          { g with type := e.type
                   totalMoles := e.totalMoles * p.2
                   volume := e.volume * p.2
                   vm := if sum > 0 then e.vm * p.2 / sum else 0
                   totalP := if sum > 0 then g.totalP + e.totalP * p.2 / sum else 0
                   temperature := e.temperature } false cm'
      else if g.type ≠ e.type then g
      else
        GasPhase.loop ents sum m
          { g with totalMoles := g.totalMoles + e.totalMoles * p.2
                   volume := g.volume + e.volume * p.2
                   vm := if sum > 0 then g.vm + e.vm * p.2 / sum else g.vm
                   totalP := if sum > 0 then g.totalP + e.totalP * p.2 / sum
                     else g.totalP } false cm'

/-- `cxxGasPhase::cxxGasPhase(entity_map, mx, n_user, io)` (GasPhase.cxx:46-153). -/
def GasPhase.mix (ents : Int → Option GasPhase) (m : Mix) : GasPhase :=
  GasPhase.loop ents (m.map Prod.snd).sum m
    { type := .pressure, totalP := 0, volume := 0, vm := 0, totalMoles := 0
      temperature := 29815 / 100, comps := [] } true []

end Verif.Mixing
