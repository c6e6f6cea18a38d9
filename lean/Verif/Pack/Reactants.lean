import Verif.Pack.Codec

/-!
# Packing of the reactants (C59)

One structure per class with all its data members, its `Serialize` and `Deserialize`, and a
theorem saying what arrives. Enumerations are packed through `(int)` casts and are modelled by
their numbers. Members packed as `int` are any integers (no overflow can occur: they are copied).
The `type` tag of `cxxNameDouble`, set by the constructor of the owner, is not modelled.
-/

namespace Verif.Pack

open Verif.OMap Verif.Serial Verif.NameDouble

/-- One member packed after another. -/
scoped infixr:67 " ▹ " => putPair

/-- One member read after another. -/
scoped infixr:67 " ◃ " => getPair

/-! ## Solutions -/

/-- `cxxSolutionIsotope` (SolutionIsotope.h:73-82). -/
structure Isotope where
  isotopeNumber : ℚ
  eltName : Name
  isotopeName : Name
  total : ℚ
  ratio : ℚ
  ratioUncertainty : ℚ
  ratioUncertaintyDefined : Bool
  xRatioUncertainty : ℚ
  coef : ℚ

/-- `cxxSolutionIsotope::Serialize` (SolutionIsotope.cxx:297-308). -/
def putIsotope : Put Isotope :=
  putVia (fun x =>
     (x.isotopeNumber, x.eltName, x.isotopeName, x.total, x.ratio, x.ratioUncertainty,
      x.ratioUncertaintyDefined, x.xRatioUncertainty, x.coef))
    (putDbl ▹ putWord ▹ putWord ▹ putDbl ▹ putDbl ▹ putDbl ▹ putBool ▹ putDbl ▹ putDbl)

/-- `cxxSolutionIsotope::Deserialize` (SolutionIsotope.cxx:310-321). -/
def getIsotope : Get Isotope :=
  getVia (fun
    | (isotopeNumber, eltName, isotopeName, total, ratio, ratioUncertainty,
       ratioUncertaintyDefined, xRatioUncertainty, coef) =>
      { isotopeNumber := isotopeNumber, eltName := eltName, isotopeName := isotopeName,
        total := total, ratio := ratio, ratioUncertainty := ratioUncertainty,
        ratioUncertaintyDefined := ratioUncertaintyDefined,
        xRatioUncertainty := xRatioUncertainty, coef := coef })
    (getDbl ◃ getWord ◃ getWord ◃ getDbl ◃ getDbl ◃ getDbl ◃ getBool ◃ getDbl ◃ getDbl)

/-- Every name can be sent (`Serial.GoodWord`, `Serial.SendableND`) and every map is one. -/
def Isotope.Good (x : Isotope) : Prop :=
  GoodWord x.eltName ∧ GoodWord x.isotopeName

theorem carries_Isotope : Carries putIsotope getIsotope Isotope.Good id := by
  refine carries_via
    (carries_pair carries_dbl (carries_pair carries_word (carries_pair carries_word
    (carries_pair carries_dbl (carries_pair carries_dbl (carries_pair carries_dbl
    (carries_pair carries_bool (carries_pair carries_dbl carries_dbl)))))))) ?_ ?_
  · intro x h
    simp only [Isotope.Good] at h
    simpa using h
  · intro x _
    simp

/-- The isotopes of a solution: their number, then key and isotope (Solution.cxx:1629-1637). -/
def putIsotopes : Put (SMap Name Isotope) := putVec (putPair putWord putIsotope)

/-- Solution.cxx:1716-1726. -/
def getIsotopes : Get (SMap Name Isotope) := getVia mapOf (getVec (getPair getWord getIsotope))

/-- A map whose names can be sent. -/
def GoodIsotopes (m : SMap Name Isotope) : Prop :=
  Sorted m ∧ ∀ p ∈ m, GoodWord p.1 ∧ p.2.Good

theorem carries_Isotopes : Carries putIsotopes getIsotopes GoodIsotopes id := by
  refine carries_via (f := id) (g := mapOf)
    (carries_vec (carries_pair carries_word carries_Isotope)) ?_ ?_
  · intro m h; exact h.2
  · intro m h
    rw [map_id_pair]
    exact mapOf_sorted m h.1

/-- `cxxSolution` (Solution.h:17). `initial_data` is not modelled. -/
structure Solution where
  nUser : Int
  newDef : Bool
  patm : ℚ
  potV : ℚ
  tc : ℚ
  ph : ℚ
  pe : ℚ
  mu : ℚ
  ah2o : ℚ
  totalH : ℚ
  totalO : ℚ
  cb : ℚ
  massWater : ℚ
  density : ℚ
  viscosity : ℚ
  solnVol : ℚ
  totalAlkalinity : ℚ
  totals : ND
  masterActivity : ND
  speciesGamma : ND
  isotopes : SMap Name Isotope
  speciesMap : SMap Int ℚ
  logGammaMap : SMap Int ℚ
  logMolalitiesMap : SMap Int ℚ
  /-- `cxxNumKeyword::n_user_end` -/
  nUserEnd : Int
  /-- `cxxNumKeyword::description` -/
  description : Name
  /-- `viscos_0`: not packed, 1.0 from the constructor (Solution.cxx:51) -/
  viscos0 : ℚ

/-- `cxxSolution::Serialize` (Solution.cxx:1588-1674). -/
def putSolution : Put Solution :=
  putVia (fun x =>
     (x.nUser, x.newDef, x.patm, x.potV, x.tc, x.ph, x.pe, x.mu, x.ah2o, x.totalH, x.totalO,
      x.cb, x.massWater, x.density, x.viscosity, x.solnVol, x.totalAlkalinity, x.totals,
      x.masterActivity, x.speciesGamma, x.isotopes, x.speciesMap, x.logGammaMap,
      x.logMolalitiesMap))
    (putInt ▹ putBool ▹ putDbl ▹ putDbl ▹ putDbl ▹ putDbl ▹ putDbl ▹ putDbl ▹ putDbl ▹ putDbl ▹
    putDbl ▹ putDbl ▹ putDbl ▹ putDbl ▹ putDbl ▹ putDbl ▹ putDbl ▹ putND ▹ putND ▹ putND ▹
    putIsotopes ▹ putIntMap ▹ putIntMap ▹ putIntMap)

/-- `cxxSolution::Deserialize` (Solution.cxx:1678-1760). -/
def getSolution : Get Solution :=
  getVia (fun
    | (nUser, newDef, patm, potV, tc, ph, pe, mu, ah2o, totalH, totalO, cb, massWater, density,
       viscosity, solnVol, totalAlkalinity, totals, masterActivity, speciesGamma, isotopes,
       speciesMap, logGammaMap, logMolalitiesMap) =>
      { nUser := nUser, newDef := newDef, patm := patm, potV := potV, tc := tc, ph := ph,
        pe := pe, mu := mu, ah2o := ah2o, totalH := totalH, totalO := totalO, cb := cb,
        massWater := massWater, density := density, viscosity := viscosity, solnVol := solnVol,
        totalAlkalinity := totalAlkalinity, totals := totals, masterActivity := masterActivity,
        speciesGamma := speciesGamma, isotopes := isotopes, speciesMap := speciesMap,
        logGammaMap := logGammaMap, logMolalitiesMap := logMolalitiesMap, nUserEnd := nUser,
        description := "  ".toList, viscos0 := 1 })
    (getInt ◃ getBool ◃ getDbl ◃ getDbl ◃ getDbl ◃ getDbl ◃ getDbl ◃ getDbl ◃ getDbl ◃ getDbl ◃
    getDbl ◃ getDbl ◃ getDbl ◃ getDbl ◃ getDbl ◃ getDbl ◃ getDbl ◃ getND ◃ getND ◃ getND ◃
    getIsotopes ◃ getIntMap ◃ getIntMap ◃ getIntMap)

/-- Every name can be sent (`Serial.GoodWord`, `Serial.SendableND`) and every map is one. -/
def Solution.Good (x : Solution) : Prop :=
  SendableND x.totals ∧ SendableND x.masterActivity ∧ SendableND x.speciesGamma ∧
  GoodIsotopes x.isotopes ∧ Sorted x.speciesMap ∧ Sorted x.logGammaMap ∧
  Sorted x.logMolalitiesMap

/-- What arrives: the members that are not packed get the values given by the constructor or by
`Deserialize`. -/
def Solution.received (x : Solution) : Solution :=
  { x with nUserEnd := x.nUser, description := "  ".toList, viscos0 := 1 }

theorem carries_Solution : Carries putSolution getSolution Solution.Good Solution.received := by
  refine carries_via
    (carries_pair carries_int (carries_pair carries_bool (carries_pair carries_dbl
    (carries_pair carries_dbl (carries_pair carries_dbl (carries_pair carries_dbl
    (carries_pair carries_dbl (carries_pair carries_dbl (carries_pair carries_dbl
    (carries_pair carries_dbl (carries_pair carries_dbl (carries_pair carries_dbl
    (carries_pair carries_dbl (carries_pair carries_dbl (carries_pair carries_dbl
    (carries_pair carries_dbl (carries_pair carries_dbl (carries_pair carries_ND
    (carries_pair carries_ND (carries_pair carries_ND (carries_pair carries_Isotopes
    (carries_pair carries_intMap (carries_pair carries_intMap
    carries_intMap))))))))))))))))))))))) ?_ ?_
  · intro x h
    simp only [Solution.Good] at h
    simpa using h
  · intro x _
    simp [Solution.received]

/-! ## Exchangers -/

/-- `cxxExchComp` (ExchComp.h). -/
structure ExchComp where
  formula : Name
  totals : ND
  la : ℚ
  chargeBalance : ℚ
  phaseName : Name
  phaseProportion : ℚ
  rateName : Name
  formulaZ : ℚ

/-- `cxxExchComp::Serialize` (ExchComp.cxx:359-369). -/
def putExchComp : Put ExchComp :=
  putVia (fun x =>
     (x.formula, x.totals, x.la, x.chargeBalance, x.phaseName, x.phaseProportion, x.rateName,
      x.formulaZ))
    (putWord ▹ putND ▹ putDbl ▹ putDbl ▹ putWord ▹ putDbl ▹ putWord ▹ putDbl)

/-- `cxxExchComp::Deserialize` (ExchComp.cxx:372-383). -/
def getExchComp : Get ExchComp :=
  getVia (fun
    | (formula, totals, la, chargeBalance, phaseName, phaseProportion, rateName, formulaZ) =>
      { formula := formula, totals := totals, la := la, chargeBalance := chargeBalance,
        phaseName := phaseName, phaseProportion := phaseProportion, rateName := rateName,
        formulaZ := formulaZ })
    (getWord ◃ getND ◃ getDbl ◃ getDbl ◃ getWord ◃ getDbl ◃ getWord ◃ getDbl)

/-- Every name can be sent (`Serial.GoodWord`, `Serial.SendableND`) and every map is one. -/
def ExchComp.Good (x : ExchComp) : Prop :=
  GoodWord x.formula ∧ SendableND x.totals ∧ GoodWord x.phaseName ∧ GoodWord x.rateName

theorem carries_ExchComp : Carries putExchComp getExchComp ExchComp.Good id := by
  refine carries_via
    (carries_pair carries_word (carries_pair carries_ND (carries_pair carries_dbl
    (carries_pair carries_dbl (carries_pair carries_word (carries_pair carries_dbl
    (carries_pair carries_word carries_dbl))))))) ?_ ?_
  · intro x h
    simp only [ExchComp.Good] at h
    simpa using h
  · intro x _
    simp

/-- `cxxExchange` (Exchange.h). -/
structure Exchange where
  nUser : Int
  comps : List ExchComp
  pitzerExchangeGammas : Bool
  newDef : Bool
  solutionEquilibria : Bool
  nSolution : Int
  totals : ND
  /-- `cxxNumKeyword::n_user_end` -/
  nUserEnd : Int
  /-- `cxxNumKeyword::description` -/
  description : Name

/-- `cxxExchange::Serialize` (Exchange.cxx:414-429). -/
def putExchange : Put Exchange :=
  putVia (fun x =>
     (x.nUser, x.comps, x.pitzerExchangeGammas, x.newDef, x.solutionEquilibria, x.nSolution,
      x.totals))
    (putInt ▹ putVec putExchComp ▹ putBool ▹ putBool ▹ putBool ▹ putInt ▹ putND)

/-- `cxxExchange::Deserialize` (Exchange.cxx:433-454). -/
def getExchange : Get Exchange :=
  getVia (fun
    | (nUser, comps, pitzerExchangeGammas, newDef, solutionEquilibria, nSolution, totals) =>
      { nUser := nUser, comps := comps, pitzerExchangeGammas := pitzerExchangeGammas,
        newDef := newDef, solutionEquilibria := solutionEquilibria, nSolution := nSolution,
        totals := totals, nUserEnd := nUser, description := " ".toList })
    (getInt ◃ getVec getExchComp ◃ getBool ◃ getBool ◃ getBool ◃ getInt ◃ getND)

/-- Every name can be sent (`Serial.GoodWord`, `Serial.SendableND`) and every map is one. -/
def Exchange.Good (x : Exchange) : Prop :=
  (∀ c ∈ x.comps, c.Good) ∧ SendableND x.totals

/-- What arrives: the members that are not packed get the values given by the constructor or by
`Deserialize`. -/
def Exchange.received (x : Exchange) : Exchange :=
  { x with nUserEnd := x.nUser, description := " ".toList }

theorem carries_Exchange : Carries putExchange getExchange Exchange.Good Exchange.received := by
  refine carries_via
    (carries_pair carries_int (carries_pair (carries_vec carries_ExchComp) (carries_pair
    carries_bool (carries_pair carries_bool (carries_pair carries_bool (carries_pair
    carries_int carries_ND)))))) ?_ ?_
  · intro x h
    simp only [Exchange.Good] at h
    simpa using h
  · intro x _
    simp [Exchange.received]

/-! ## Gas phases -/

/-- `cxxGasComp` (GasComp.h:45-55). -/
structure GasComp where
  phaseName : Name
  moles : ℚ
  pRead : ℚ
  initialMoles : ℚ
  p : ℚ
  phi : ℚ
  f : ℚ

/-- `cxxGasComp::Serialize` (GasComp.cxx:231-240). -/
def putGasComp : Put GasComp :=
  putVia (fun x =>
     (x.phaseName, x.moles, x.pRead, x.initialMoles, x.p, x.phi, x.f))
    (putWord ▹ putDbl ▹ putDbl ▹ putDbl ▹ putDbl ▹ putDbl ▹ putDbl)

/-- `cxxGasComp::Deserialize` (GasComp.cxx:243-253). -/
def getGasComp : Get GasComp :=
  getVia (fun
    | (phaseName, moles, pRead, initialMoles, p, phi, f) =>
      { phaseName := phaseName, moles := moles, pRead := pRead, initialMoles := initialMoles,
        p := p, phi := phi, f := f })
    (getWord ◃ getDbl ◃ getDbl ◃ getDbl ◃ getDbl ◃ getDbl ◃ getDbl)

/-- Every name can be sent (`Serial.GoodWord`, `Serial.SendableND`) and every map is one. -/
def GasComp.Good (x : GasComp) : Prop :=
  GoodWord x.phaseName

theorem carries_GasComp : Carries putGasComp getGasComp GasComp.Good id := by
  refine carries_via
    (carries_pair carries_word (carries_pair carries_dbl (carries_pair carries_dbl
    (carries_pair carries_dbl (carries_pair carries_dbl (carries_pair carries_dbl
    carries_dbl)))))) ?_ ?_
  · intro x h
    simp only [GasComp.Good] at h
    simpa using h
  · intro x _
    simp

/-- `(type == GP_PRESSURE) ? 0 : 1` (GasPhase.cxx:594); `true` stands for fixed pressure. -/
def putGasType : Put Bool := fun b d => (d, [if b then 0 else 1], [])

/-- `(ints[ii++] == 0) ? GP_PRESSURE : GP_VOLUME` (GasPhase.cxx:621). -/
def getGasType : Get Bool := getVia (fun i => decide (i = 0)) getInt

theorem carries_gasType : Carries putGasType getGasType (fun _ => True) id :=
  fun b _ _ hd => ⟨hd, List.prefix_rfl, id, fun _ _ _ => by cases b <;> rfl⟩

/-- `cxxGasPhase` (GasPhase.h). -/
structure GasPhase where
  nUser : Int
  fixedPressure : Bool
  totalP : ℚ
  volume : ℚ
  comps : List GasComp
  newDef : Bool
  solutionEquilibria : Bool
  nSolution : Int
  temperature : ℚ
  totalMoles : ℚ
  vm : ℚ
  prIn : Bool
  totals : ND
  /-- `cxxNumKeyword::n_user_end` -/
  nUserEnd : Int
  /-- `cxxNumKeyword::description` -/
  description : Name

/-- `cxxGasPhase::Serialize` (GasPhase.cxx:591-611). -/
def putGasPhase : Put GasPhase :=
  putVia (fun x =>
     (x.nUser, x.fixedPressure, x.totalP, x.volume, x.comps, x.newDef, x.solutionEquilibria,
      x.nSolution, x.temperature, x.totalMoles, x.vm, x.prIn, x.totals))
    (putInt ▹ putGasType ▹ putDbl ▹ putDbl ▹ putVec putGasComp ▹ putBool ▹ putBool ▹ putInt ▹
    putDbl ▹ putDbl ▹ putDbl ▹ putBool ▹ putND)

/-- `cxxGasPhase::Deserialize` (GasPhase.cxx:614-641). -/
def getGasPhase : Get GasPhase :=
  getVia (fun
    | (nUser, fixedPressure, totalP, volume, comps, newDef, solutionEquilibria, nSolution,
       temperature, totalMoles, vm, prIn, totals) =>
      { nUser := nUser, fixedPressure := fixedPressure, totalP := totalP, volume := volume,
        comps := comps, newDef := newDef, solutionEquilibria := solutionEquilibria,
        nSolution := nSolution, temperature := temperature, totalMoles := totalMoles, vm := vm,
        prIn := prIn, totals := totals, nUserEnd := nUser, description := " ".toList })
    (getInt ◃ getGasType ◃ getDbl ◃ getDbl ◃ getVec getGasComp ◃ getBool ◃ getBool ◃ getInt ◃
    getDbl ◃ getDbl ◃ getDbl ◃ getBool ◃ getND)

/-- Every name can be sent (`Serial.GoodWord`, `Serial.SendableND`) and every map is one. -/
def GasPhase.Good (x : GasPhase) : Prop :=
  (∀ c ∈ x.comps, c.Good) ∧ SendableND x.totals

/-- What arrives: the members that are not packed get the values given by the constructor or by
`Deserialize`. -/
def GasPhase.received (x : GasPhase) : GasPhase :=
  { x with nUserEnd := x.nUser, description := " ".toList }

theorem carries_GasPhase : Carries putGasPhase getGasPhase GasPhase.Good GasPhase.received := by
  refine carries_via
    (carries_pair carries_int (carries_pair carries_gasType (carries_pair carries_dbl
    (carries_pair carries_dbl (carries_pair (carries_vec carries_GasComp) (carries_pair
    carries_bool (carries_pair carries_bool (carries_pair carries_int (carries_pair
    carries_dbl (carries_pair carries_dbl (carries_pair carries_dbl (carries_pair
    carries_bool carries_ND)))))))))))) ?_ ?_
  · intro x h
    simp only [GasPhase.Good] at h
    simpa using h
  · intro x _
    simp [GasPhase.received]

/-! ## Kinetic reactants -/

/-- `cxxKineticsComp` (KineticsComp.h:63-75). -/
structure KinComp where
  rateName : Name
  namecoef : ND
  tol : ℚ
  m : ℚ
  m0 : ℚ
  dParams : List ℚ
  moles : ℚ
  initialMoles : ℚ
  molesOfReaction : ND

/-- `cxxKineticsComp::Serialize` (KineticsComp.cxx:274-289). -/
def putKinComp : Put KinComp :=
  putVia (fun x =>
     (x.rateName, x.namecoef, x.tol, x.m, x.m0, x.dParams, x.moles, x.initialMoles,
      x.molesOfReaction))
    (putWord ▹ putND ▹ putDbl ▹ putDbl ▹ putDbl ▹ putVec putDbl ▹ putDbl ▹ putDbl ▹ putND)

/-- `cxxKineticsComp::Deserialize` (KineticsComp.cxx:291-307). -/
def getKinComp : Get KinComp :=
  getVia (fun
    | (rateName, namecoef, tol, m, m0, dParams, moles, initialMoles, molesOfReaction) =>
      { rateName := rateName, namecoef := namecoef, tol := tol, m := m, m0 := m0,
        dParams := dParams, moles := moles, initialMoles := initialMoles,
        molesOfReaction := molesOfReaction })
    (getWord ◃ getND ◃ getDbl ◃ getDbl ◃ getDbl ◃ getVec getDbl ◃ getDbl ◃ getDbl ◃ getND)

/-- Every name can be sent (`Serial.GoodWord`, `Serial.SendableND`) and every map is one. -/
def KinComp.Good (x : KinComp) : Prop :=
  GoodWord x.rateName ∧ SendableND x.namecoef ∧ SendableND x.molesOfReaction

theorem carries_KinComp : Carries putKinComp getKinComp KinComp.Good id := by
  refine carries_via
    (carries_pair carries_word (carries_pair carries_ND (carries_pair carries_dbl
    (carries_pair carries_dbl (carries_pair carries_dbl (carries_pair (carries_vec
    carries_dbl) (carries_pair carries_dbl (carries_pair carries_dbl carries_ND)))))))) ?_ ?_
  · intro x h
    simp only [KinComp.Good] at h
    simpa using h
  · intro x _
    simp

/-- `cxxKinetics` (cxxKinetics.h). -/
structure Kinetics where
  nUser : Int
  comps : List KinComp
  steps : List ℚ
  count : Int
  equalIncrements : Bool
  stepDivide : ℚ
  rk : Int
  badStepMax : Int
  useCvode : Bool
  cvodeSteps : Int
  cvodeOrder : Int
  totals : ND
  /-- `cxxNumKeyword::n_user_end` -/
  nUserEnd : Int
  /-- `cxxNumKeyword::description` -/
  description : Name

/-- `cxxKinetics::Serialize` (cxxKinetics.cxx:544-567). -/
def putKinetics : Put Kinetics :=
  putVia (fun x =>
     (x.nUser, x.comps, x.steps, x.count, x.equalIncrements, x.stepDivide, x.rk, x.badStepMax,
      x.useCvode, x.cvodeSteps, x.cvodeOrder, x.totals))
    (putInt ▹ putVec putKinComp ▹ putVec putDbl ▹ putInt ▹ putBool ▹ putDbl ▹ putInt ▹ putInt ▹
    putBool ▹ putInt ▹ putInt ▹ putND)

/-- `cxxKinetics::Deserialize` (cxxKinetics.cxx:570-600). -/
def getKinetics : Get Kinetics :=
  getVia (fun
    | (nUser, comps, steps, count, equalIncrements, stepDivide, rk, badStepMax, useCvode,
       cvodeSteps, cvodeOrder, totals) =>
      { nUser := nUser, comps := comps, steps := steps, count := count,
        equalIncrements := equalIncrements, stepDivide := stepDivide, rk := rk,
        badStepMax := badStepMax, useCvode := useCvode, cvodeSteps := cvodeSteps,
        cvodeOrder := cvodeOrder, totals := totals, nUserEnd := nUser, description := " ".toList })
    (getInt ◃ getVec getKinComp ◃ getVec getDbl ◃ getInt ◃ getBool ◃ getDbl ◃ getInt ◃ getInt ◃
    getBool ◃ getInt ◃ getInt ◃ getND)

/-- Every name can be sent (`Serial.GoodWord`, `Serial.SendableND`) and every map is one. -/
def Kinetics.Good (x : Kinetics) : Prop :=
  (∀ c ∈ x.comps, c.Good) ∧ SendableND x.totals

/-- What arrives: the members that are not packed get the values given by the constructor or by
`Deserialize`. -/
def Kinetics.received (x : Kinetics) : Kinetics :=
  { x with nUserEnd := x.nUser, description := " ".toList }

theorem carries_Kinetics : Carries putKinetics getKinetics Kinetics.Good Kinetics.received := by
  refine carries_via
    (carries_pair carries_int (carries_pair (carries_vec carries_KinComp) (carries_pair
    (carries_vec carries_dbl) (carries_pair carries_int (carries_pair carries_bool
    (carries_pair carries_dbl (carries_pair carries_int (carries_pair carries_int
    (carries_pair carries_bool (carries_pair carries_int (carries_pair carries_int
    carries_ND))))))))))) ?_ ?_
  · intro x h
    simp only [Kinetics.Good] at h
    simpa using h
  · intro x _
    simp [Kinetics.received]

/-! ## Equilibrium phases -/

/-- Components of an assemblage, kept in a map by name: packed without the key
(PPassemblage.cxx:334-340, SSassemblage.cxx:274-279). -/
def putKeyed {C : Type} (p : Put C) : Put (SMap Name C) := putVia (List.map Prod.snd) (putVec p)

/-- Read back under the component's own name (PPassemblage.cxx:357-365,
SSassemblage.cxx:294-302). -/
def getKeyed {C : Type} (name : C → Name) (g : Get C) : Get (SMap Name C) :=
  getVia (fun l => mapOf (l.map (fun c => (name c, c)))) (getVec g)

theorem carries_keyed {C : Type} {p : Put C} {g : Get C} {P : C → Prop} (name : C → Name)
    (h : Carries p g P id) :
    Carries (putKeyed p) (getKeyed name g)
      (fun m => Sorted m ∧ ∀ q ∈ m, name q.2 = q.1 ∧ P q.2) id := by
  refine carries_via (carries_vec h) ?_ ?_
  · rintro m ⟨_, hm⟩ c hc
    obtain ⟨q, hq, rfl⟩ := List.mem_map.mp hc
    exact (hm q hq).2
  · rintro m ⟨hs, hm⟩
    have e : List.map (fun c => (name c, c)) (List.map id (List.map Prod.snd m)) = m := by
      rw [List.map_id, List.map_map]
      conv => rhs; rw [← List.map_id m]
      refine List.map_congr_left fun q hq => ?_
      simp [(hm q hq).1]
    rw [e]
    exact mapOf_sorted m hs

/-- `cxxPPassemblageComp` (PPassemblageComp.h). -/
structure PPComp where
  name : Name
  addFormula : Name
  si : ℚ
  siOrg : ℚ
  moles : ℚ
  delta : ℚ
  initialMoles : ℚ
  forceEquality : Bool
  dissolveOnly : Bool
  precipitateOnly : Bool
  totals : ND

/-- `cxxPPassemblageComp::Serialize` (PPassemblageComp.cxx:395-409). -/
def putPPComp : Put PPComp :=
  putVia (fun x =>
     (x.name, x.addFormula, x.si, x.siOrg, x.moles, x.delta, x.initialMoles, x.forceEquality,
      x.dissolveOnly, x.precipitateOnly, x.totals))
    (putWord ▹ putWord ▹ putDbl ▹ putDbl ▹ putDbl ▹ putDbl ▹ putDbl ▹ putBool ▹ putBool ▹
    putBool ▹ putND)

/-- `cxxPPassemblageComp::Deserialize` (PPassemblageComp.cxx:412-425). -/
def getPPComp : Get PPComp :=
  getVia (fun
    | (name, addFormula, si, siOrg, moles, delta, initialMoles, forceEquality, dissolveOnly,
       precipitateOnly, totals) =>
      { name := name, addFormula := addFormula, si := si, siOrg := siOrg, moles := moles,
        delta := delta, initialMoles := initialMoles, forceEquality := forceEquality,
        dissolveOnly := dissolveOnly, precipitateOnly := precipitateOnly, totals := totals })
    (getWord ◃ getWord ◃ getDbl ◃ getDbl ◃ getDbl ◃ getDbl ◃ getDbl ◃ getBool ◃ getBool ◃
    getBool ◃ getND)

/-- Every name can be sent (`Serial.GoodWord`, `Serial.SendableND`) and every map is one. -/
def PPComp.Good (x : PPComp) : Prop :=
  GoodWord x.name ∧ GoodWord x.addFormula ∧ SendableND x.totals

theorem carries_PPComp : Carries putPPComp getPPComp PPComp.Good id := by
  refine carries_via
    (carries_pair carries_word (carries_pair carries_word (carries_pair carries_dbl
    (carries_pair carries_dbl (carries_pair carries_dbl (carries_pair carries_dbl
    (carries_pair carries_dbl (carries_pair carries_bool (carries_pair carries_bool
    (carries_pair carries_bool carries_ND)))))))))) ?_ ?_
  · intro x h
    simp only [PPComp.Good] at h
    simpa using h
  · intro x _
    simp

/-- The phases of an assemblage. -/
def putPPComps : Put (SMap Name PPComp) := putKeyed putPPComp

/-- The phases of an assemblage. -/
def getPPComps : Get (SMap Name PPComp) := getKeyed PPComp.name getPPComp

/-- A map by the components' own names, which can be sent. -/
def GoodPPComps (m : SMap Name PPComp) : Prop := Sorted m ∧ ∀ q ∈ m, q.2.name = q.1 ∧ q.2.Good

theorem carries_PPComps : Carries putPPComps getPPComps GoodPPComps id := carries_keyed _ carries_PPComp

/-- `cxxPPassemblage` (PPassemblage.h). -/
structure PPAssemblage where
  nUser : Int
  newDef : Bool
  comps : SMap Name PPComp
  eltList : ND
  assemblageTotals : ND
  /-- `cxxNumKeyword::n_user_end` -/
  nUserEnd : Int
  /-- `cxxNumKeyword::description` -/
  description : Name

/-- `cxxPPassemblage::Serialize` (PPassemblage.cxx:328-343). -/
def putPPAssemblage : Put PPAssemblage :=
  putVia (fun x =>
     (x.nUser, x.newDef, x.comps, x.eltList, x.assemblageTotals))
    (putInt ▹ putBool ▹ putPPComps ▹ putND ▹ putND)

/-- `cxxPPassemblage::Deserialize` (PPassemblage.cxx:347-368). -/
def getPPAssemblage : Get PPAssemblage :=
  getVia (fun
    | (nUser, newDef, comps, eltList, assemblageTotals) =>
      { nUser := nUser, newDef := newDef, comps := comps, eltList := eltList,
        assemblageTotals := assemblageTotals, nUserEnd := nUser, description := " ".toList })
    (getInt ◃ getBool ◃ getPPComps ◃ getND ◃ getND)

/-- Every name can be sent (`Serial.GoodWord`, `Serial.SendableND`) and every map is one. -/
def PPAssemblage.Good (x : PPAssemblage) : Prop :=
  GoodPPComps x.comps ∧ SendableND x.eltList ∧ SendableND x.assemblageTotals

/-- What arrives: the members that are not packed get the values given by the constructor or by
`Deserialize`. -/
def PPAssemblage.received (x : PPAssemblage) : PPAssemblage :=
  { x with nUserEnd := x.nUser, description := " ".toList }

theorem carries_PPAssemblage : Carries putPPAssemblage getPPAssemblage PPAssemblage.Good PPAssemblage.received := by
  refine carries_via
    (carries_pair carries_int (carries_pair carries_bool (carries_pair carries_PPComps
    (carries_pair carries_ND carries_ND)))) ?_ ?_
  · intro x h
    simp only [PPAssemblage.Good] at h
    simpa using h
  · intro x _
    simp [PPAssemblage.received]

/-! ## Solid solutions -/

/-- `cxxSScomp` (SScomp.h). -/
structure SSComp where
  name : Name
  moles : ℚ
  initialMoles : ℚ
  initMoles : ℚ
  delta : ℚ
  fractionX : ℚ
  log10Lambda : ℚ
  log10FractionX : ℚ
  dn : ℚ
  dnc : ℚ
  dnb : ℚ

/-- `cxxSScomp::Serialize` (SScomp.cxx:247-263). -/
def putSSComp : Put SSComp :=
  putVia (fun x =>
     (x.name, x.moles, x.initialMoles, x.initMoles, x.delta, x.fractionX, x.log10Lambda,
      x.log10FractionX, x.dn, x.dnc, x.dnb))
    (putWord ▹ putDbl ▹ putDbl ▹ putDbl ▹ putDbl ▹ putDbl ▹ putDbl ▹ putDbl ▹ putDbl ▹ putDbl ▹
    putDbl)

/-- `cxxSScomp::Deserialize` (SScomp.cxx:266-282). -/
def getSSComp : Get SSComp :=
  getVia (fun
    | (name, moles, initialMoles, initMoles, delta, fractionX, log10Lambda, log10FractionX, dn,
       dnc, dnb) =>
      { name := name, moles := moles, initialMoles := initialMoles, initMoles := initMoles,
        delta := delta, fractionX := fractionX, log10Lambda := log10Lambda,
        log10FractionX := log10FractionX, dn := dn, dnc := dnc, dnb := dnb })
    (getWord ◃ getDbl ◃ getDbl ◃ getDbl ◃ getDbl ◃ getDbl ◃ getDbl ◃ getDbl ◃ getDbl ◃ getDbl ◃
    getDbl)

/-- Every name can be sent (`Serial.GoodWord`, `Serial.SendableND`) and every map is one. -/
def SSComp.Good (x : SSComp) : Prop :=
  GoodWord x.name

theorem carries_SSComp : Carries putSSComp getSSComp SSComp.Good id := by
  refine carries_via
    (carries_pair carries_word (carries_pair carries_dbl (carries_pair carries_dbl
    (carries_pair carries_dbl (carries_pair carries_dbl (carries_pair carries_dbl
    (carries_pair carries_dbl (carries_pair carries_dbl (carries_pair carries_dbl
    (carries_pair carries_dbl carries_dbl)))))))))) ?_ ?_
  · intro x h
    simp only [SSComp.Good] at h
    simpa using h
  · intro x _
    simp

/-- `cxxSS` (SS.h). -/
structure SS where
  name : Name
  ag0 : ℚ
  ag1 : ℚ
  comps : List SSComp
  a0 : ℚ
  a1 : ℚ
  miscibility : Bool
  spinodal : Bool
  tk : ℚ
  xb1 : ℚ
  xb2 : ℚ
  inputCase : Int
  p : List ℚ
  totalMoles : ℚ
  dn : ℚ
  ssIn : Bool
  totals : ND

/-- `cxxSS::Serialize` (SS.cxx:513-546). -/
def putSS : Put SS :=
  putVia (fun x =>
     (x.name, x.ag0, x.ag1, x.comps, x.a0, x.a1, x.miscibility, x.spinodal, x.tk, x.xb1, x.xb2,
      x.inputCase, x.p, x.totalMoles, x.dn, x.ssIn, x.totals))
    (putWord ▹ putDbl ▹ putDbl ▹ putVec putSSComp ▹ putDbl ▹ putDbl ▹ putBool ▹ putBool ▹
    putDbl ▹ putDbl ▹ putDbl ▹ putInt ▹ putVec putDbl ▹ putDbl ▹ putDbl ▹ putBool ▹ putND)

/-- `cxxSS::Deserialize` (SS.cxx:549-586). -/
def getSS : Get SS :=
  getVia (fun
    | (name, ag0, ag1, comps, a0, a1, miscibility, spinodal, tk, xb1, xb2, inputCase, p,
       totalMoles, dn, ssIn, totals) =>
      { name := name, ag0 := ag0, ag1 := ag1, comps := comps, a0 := a0, a1 := a1,
        miscibility := miscibility, spinodal := spinodal, tk := tk, xb1 := xb1, xb2 := xb2,
        inputCase := inputCase, p := p, totalMoles := totalMoles, dn := dn, ssIn := ssIn,
        totals := totals })
    (getWord ◃ getDbl ◃ getDbl ◃ getVec getSSComp ◃ getDbl ◃ getDbl ◃ getBool ◃ getBool ◃
    getDbl ◃ getDbl ◃ getDbl ◃ getInt ◃ getVec getDbl ◃ getDbl ◃ getDbl ◃ getBool ◃ getND)

/-- Every name can be sent (`Serial.GoodWord`, `Serial.SendableND`) and every map is one. -/
def SS.Good (x : SS) : Prop :=
  GoodWord x.name ∧ (∀ c ∈ x.comps, c.Good) ∧ SendableND x.totals

theorem carries_SS : Carries putSS getSS SS.Good id := by
  refine carries_via
    (carries_pair carries_word (carries_pair carries_dbl (carries_pair carries_dbl
    (carries_pair (carries_vec carries_SSComp) (carries_pair carries_dbl (carries_pair
    carries_dbl (carries_pair carries_bool (carries_pair carries_bool (carries_pair
    carries_dbl (carries_pair carries_dbl (carries_pair carries_dbl (carries_pair
    carries_int (carries_pair (carries_vec carries_dbl) (carries_pair carries_dbl
    (carries_pair carries_dbl (carries_pair carries_bool carries_ND)))))))))))))))) ?_ ?_
  · intro x h
    simp only [SS.Good] at h
    simpa using h
  · intro x _
    simp

/-- The solid solutions of an assemblage. -/
def putSSs : Put (SMap Name SS) := putKeyed putSS

/-- The solid solutions of an assemblage. -/
def getSSs : Get (SMap Name SS) := getKeyed SS.name getSS

/-- A map by the components' own names, which can be sent. -/
def GoodSSs (m : SMap Name SS) : Prop := Sorted m ∧ ∀ q ∈ m, q.2.name = q.1 ∧ q.2.Good

theorem carries_SSs : Carries putSSs getSSs GoodSSs id := carries_keyed _ carries_SS

/-- `cxxSSassemblage` (SSassemblage.h). -/
structure SSAssemblage where
  nUser : Int
  sss : SMap Name SS
  newDef : Bool
  totals : ND
  /-- `cxxNumKeyword::n_user_end` -/
  nUserEnd : Int
  /-- `cxxNumKeyword::description` -/
  description : Name

/-- `cxxSSassemblage::Serialize` (SSassemblage.cxx:268-283). -/
def putSSAssemblage : Put SSAssemblage :=
  putVia (fun x =>
     (x.nUser, x.sss, x.newDef, x.totals))
    (putInt ▹ putSSs ▹ putBool ▹ putND)

/-- `cxxSSassemblage::Deserialize` (SSassemblage.cxx:286-307). -/
def getSSAssemblage : Get SSAssemblage :=
  getVia (fun
    | (nUser, sss, newDef, totals) =>
      { nUser := nUser, sss := sss, newDef := newDef, totals := totals, nUserEnd := nUser,
        description := " ".toList })
    (getInt ◃ getSSs ◃ getBool ◃ getND)

/-- Every name can be sent (`Serial.GoodWord`, `Serial.SendableND`) and every map is one. -/
def SSAssemblage.Good (x : SSAssemblage) : Prop :=
  GoodSSs x.sss ∧ SendableND x.totals

/-- What arrives: the members that are not packed get the values given by the constructor or by
`Deserialize`. -/
def SSAssemblage.received (x : SSAssemblage) : SSAssemblage :=
  { x with nUserEnd := x.nUser, description := " ".toList }

theorem carries_SSAssemblage : Carries putSSAssemblage getSSAssemblage SSAssemblage.Good SSAssemblage.received := by
  refine carries_via
    (carries_pair carries_int (carries_pair carries_SSs (carries_pair carries_bool
    carries_ND))) ?_ ?_
  · intro x h
    simp only [SSAssemblage.Good] at h
    simpa using h
  · intro x _
    simp [SSAssemblage.received]

/-! ## Surfaces -/

/-- `cxxSurfaceComp` (SurfaceComp.h). -/
structure SurfComp where
  formula : Name
  formulaZ : ℚ
  moles : ℚ
  totals : ND
  la : ℚ
  chargeName : Name
  chargeBalance : ℚ
  phaseName : Name
  phaseProportion : ℚ
  rateName : Name
  dw : ℚ
  masterElement : Name

/-- `cxxSurfaceComp::Serialize` (SurfaceComp.cxx:460-474). -/
def putSurfComp : Put SurfComp :=
  putVia (fun x =>
     (x.formula, x.formulaZ, x.moles, x.totals, x.la, x.chargeName, x.chargeBalance,
      x.phaseName, x.phaseProportion, x.rateName, x.dw, x.masterElement))
    (putWord ▹ putDbl ▹ putDbl ▹ putND ▹ putDbl ▹ putWord ▹ putDbl ▹ putWord ▹ putDbl ▹
    putWord ▹ putDbl ▹ putWord)

/-- `cxxSurfaceComp::Deserialize` (SurfaceComp.cxx:477-491). -/
def getSurfComp : Get SurfComp :=
  getVia (fun
    | (formula, formulaZ, moles, totals, la, chargeName, chargeBalance, phaseName,
       phaseProportion, rateName, dw, masterElement) =>
      { formula := formula, formulaZ := formulaZ, moles := moles, totals := totals, la := la,
        chargeName := chargeName, chargeBalance := chargeBalance, phaseName := phaseName,
        phaseProportion := phaseProportion, rateName := rateName, dw := dw,
        masterElement := masterElement })
    (getWord ◃ getDbl ◃ getDbl ◃ getND ◃ getDbl ◃ getWord ◃ getDbl ◃ getWord ◃ getDbl ◃
    getWord ◃ getDbl ◃ getWord)

/-- Every name can be sent (`Serial.GoodWord`, `Serial.SendableND`) and every map is one. -/
def SurfComp.Good (x : SurfComp) : Prop :=
  GoodWord x.formula ∧ SendableND x.totals ∧ GoodWord x.chargeName ∧ GoodWord x.phaseName ∧
  GoodWord x.rateName ∧ GoodWord x.masterElement

theorem carries_SurfComp : Carries putSurfComp getSurfComp SurfComp.Good id := by
  refine carries_via
    (carries_pair carries_word (carries_pair carries_dbl (carries_pair carries_dbl
    (carries_pair carries_ND (carries_pair carries_dbl (carries_pair carries_word
    (carries_pair carries_dbl (carries_pair carries_word (carries_pair carries_dbl
    (carries_pair carries_word (carries_pair carries_dbl carries_word))))))))))) ?_ ?_
  · intro x h
    simp only [SurfComp.Good] at h
    simpa using h
  · intro x _
    simp

/-- `cxxSurfDL` (SurfaceCharge.h). -/
structure SurfDL where
  g : ℚ
  dg : ℚ
  psiToZ : ℚ

/-- `cxxSurfDL::Serialize` (SurfaceCharge.cxx:579-585). -/
def putSurfDL : Put SurfDL :=
  putVia (fun x =>
     (x.g, x.dg, x.psiToZ))
    (putDbl ▹ putDbl ▹ putDbl)

/-- `cxxSurfDL::Deserialize` (SurfaceCharge.cxx:588-594). -/
def getSurfDL : Get SurfDL :=
  getVia (fun
    | (g, dg, psiToZ) =>
      { g := g, dg := dg, psiToZ := psiToZ })
    (getDbl ◃ getDbl ◃ getDbl)

theorem carries_SurfDL : Carries putSurfDL getSurfDL (fun _ => True) id := by
  refine carries_via
    (carries_pair carries_dbl (carries_pair carries_dbl carries_dbl)) ?_ ?_
  · intro x _
    simp
  · intro x _
    simp

/-- `g_map`, `std::map<LDBLE, cxxSurfDL>` (SurfaceCharge.cxx:515-523). -/
def putGMap : Put (SMap ℚ SurfDL) := putVec (putPair putDbl putSurfDL)

/-- SurfaceCharge.cxx:554-564. -/
def getGMap : Get (SMap ℚ SurfDL) := getVia mapOf (getVec (getPair getDbl getSurfDL))

theorem carries_GMap : Carries putGMap getGMap Sorted id := by
  refine carries_via (f := id) (g := mapOf)
    (carries_vec (carries_pair carries_dbl carries_SurfDL)) ?_ ?_
  · intro m _ x _; exact ⟨trivial, trivial⟩
  · intro m h
    rw [map_id_pair]
    exact mapOf_sorted m h

/-- `cxxSurfaceCharge` (SurfaceCharge.h). -/
structure SurfCharge where
  name : Name
  specificArea : ℚ
  grams : ℚ
  chargeBalance : ℚ
  massWater : ℚ
  laPsi : ℚ
  capacitance0 : ℚ
  capacitance1 : ℚ
  diffuseLayerTotals : ND
  sigma0 : ℚ
  sigma1 : ℚ
  sigma2 : ℚ
  sigmaddl : ℚ
  fFree : ℚ
  ddlViscosity : ℚ
  gMap : SMap ℚ SurfDL
  dlSpeciesMap : SMap Int ℚ
  /-- `z_gMCD_map` (SurfaceCharge.h:132): not packed, empty in a new object -/
  zGMCDMap : SMap ℚ ℚ

/-- `cxxSurfaceCharge::Serialize` (SurfaceCharge.cxx:496-533). -/
def putSurfCharge : Put SurfCharge :=
  putVia (fun x =>
     (x.name, x.specificArea, x.grams, x.chargeBalance, x.massWater, x.laPsi, x.capacitance0,
      x.capacitance1, x.diffuseLayerTotals, x.sigma0, x.sigma1, x.sigma2, x.sigmaddl, x.fFree,
      x.ddlViscosity, x.gMap, x.dlSpeciesMap))
    (putWord ▹ putDbl ▹ putDbl ▹ putDbl ▹ putDbl ▹ putDbl ▹ putDbl ▹ putDbl ▹ putND ▹ putDbl ▹
    putDbl ▹ putDbl ▹ putDbl ▹ putDbl ▹ putDbl ▹ putGMap ▹ putIntMap)

/-- `cxxSurfaceCharge::Deserialize` (SurfaceCharge.cxx:536-577). -/
def getSurfCharge : Get SurfCharge :=
  getVia (fun
    | (name, specificArea, grams, chargeBalance, massWater, laPsi, capacitance0, capacitance1,
       diffuseLayerTotals, sigma0, sigma1, sigma2, sigmaddl, fFree, ddlViscosity, gMap,
       dlSpeciesMap) =>
      { name := name, specificArea := specificArea, grams := grams,
        chargeBalance := chargeBalance, massWater := massWater, laPsi := laPsi,
        capacitance0 := capacitance0, capacitance1 := capacitance1,
        diffuseLayerTotals := diffuseLayerTotals, sigma0 := sigma0, sigma1 := sigma1,
        sigma2 := sigma2, sigmaddl := sigmaddl, fFree := fFree, ddlViscosity := ddlViscosity,
        gMap := gMap, dlSpeciesMap := dlSpeciesMap, zGMCDMap := [] })
    (getWord ◃ getDbl ◃ getDbl ◃ getDbl ◃ getDbl ◃ getDbl ◃ getDbl ◃ getDbl ◃ getND ◃ getDbl ◃
    getDbl ◃ getDbl ◃ getDbl ◃ getDbl ◃ getDbl ◃ getGMap ◃ getIntMap)

/-- Every name can be sent (`Serial.GoodWord`, `Serial.SendableND`) and every map is one. -/
def SurfCharge.Good (x : SurfCharge) : Prop :=
  GoodWord x.name ∧ SendableND x.diffuseLayerTotals ∧ Sorted x.gMap ∧ Sorted x.dlSpeciesMap

/-- What arrives: the members that are not packed get the values given by the constructor or by
`Deserialize`. -/
def SurfCharge.received (x : SurfCharge) : SurfCharge :=
  { x with zGMCDMap := [] }

theorem carries_SurfCharge : Carries putSurfCharge getSurfCharge SurfCharge.Good SurfCharge.received := by
  refine carries_via
    (carries_pair carries_word (carries_pair carries_dbl (carries_pair carries_dbl
    (carries_pair carries_dbl (carries_pair carries_dbl (carries_pair carries_dbl
    (carries_pair carries_dbl (carries_pair carries_dbl (carries_pair carries_ND
    (carries_pair carries_dbl (carries_pair carries_dbl (carries_pair carries_dbl
    (carries_pair carries_dbl (carries_pair carries_dbl (carries_pair carries_dbl
    (carries_pair carries_GMap carries_intMap)))))))))))))))) ?_ ?_
  · intro x h
    simp only [SurfCharge.Good] at h
    simpa using h
  · intro x _
    simp [SurfCharge.received]

/-- `cxxSurface` (Surface.h:15). -/
structure Surface where
  nUser : Int
  comps : List SurfComp
  charges : List SurfCharge
  newDef : Bool
  tidied : Bool
  type : Int
  dlType : Int
  sitesUnits : Int
  onlyCounterIons : Bool
  thickness : ℚ
  debyeLengths : ℚ
  ddlViscosity : ℚ
  ddlLimit : ℚ
  correctD : Bool
  transport : Bool
  totals : ND
  solutionEquilibria : Bool
  nSolution : Int
  /-- `cxxNumKeyword::n_user_end` -/
  nUserEnd : Int
  /-- `cxxNumKeyword::description` -/
  description : Name
  /-- `calc_DDL_viscosity`: not packed, false from the constructor (Surface.cxx:42) -/
  calcDDLViscosity : Bool

/-- `cxxSurface::Serialize` (Surface.cxx:729-765). -/
def putSurface : Put Surface :=
  putVia (fun x =>
     (x.nUser, x.comps, x.charges, x.newDef, x.tidied, x.type, x.dlType, x.sitesUnits,
      x.onlyCounterIons, x.thickness, x.debyeLengths, x.ddlViscosity, x.ddlLimit, x.correctD,
      x.transport, x.totals, x.solutionEquilibria, x.nSolution))
    (putInt ▹ putVec putSurfComp ▹ putVec putSurfCharge ▹ putBool ▹ putBool ▹ putInt ▹ putInt ▹
    putInt ▹ putBool ▹ putDbl ▹ putDbl ▹ putDbl ▹ putDbl ▹ putBool ▹ putBool ▹ putND ▹
    putBool ▹ putInt)

/-- `cxxSurface::Deserialize` (Surface.cxx:769-812). -/
def getSurface : Get Surface :=
  getVia (fun
    | (nUser, comps, charges, newDef, tidied, type, dlType, sitesUnits, onlyCounterIons,
       thickness, debyeLengths, ddlViscosity, ddlLimit, correctD, transport, totals,
       solutionEquilibria, nSolution) =>
      { nUser := nUser, comps := comps, charges := charges, newDef := newDef, tidied := tidied,
        type := type, dlType := dlType, sitesUnits := sitesUnits,
        onlyCounterIons := onlyCounterIons, thickness := thickness,
        debyeLengths := debyeLengths, ddlViscosity := ddlViscosity, ddlLimit := ddlLimit,
        correctD := correctD, transport := transport, totals := totals,
        solutionEquilibria := solutionEquilibria, nSolution := nSolution, nUserEnd := nUser,
        description := " ".toList, calcDDLViscosity := false })
    (getInt ◃ getVec getSurfComp ◃ getVec getSurfCharge ◃ getBool ◃ getBool ◃ getInt ◃ getInt ◃
    getInt ◃ getBool ◃ getDbl ◃ getDbl ◃ getDbl ◃ getDbl ◃ getBool ◃ getBool ◃ getND ◃
    getBool ◃ getInt)

/-- Every name can be sent (`Serial.GoodWord`, `Serial.SendableND`) and every map is one. -/
def Surface.Good (x : Surface) : Prop :=
  (∀ c ∈ x.comps, c.Good) ∧ (∀ c ∈ x.charges, c.Good) ∧ SendableND x.totals

/-- What arrives: the members that are not packed get the values given by the constructor or by
`Deserialize`. -/
def Surface.received (x : Surface) : Surface :=
  { x with charges := x.charges.map SurfCharge.received, nUserEnd := x.nUser,
           description := " ".toList, calcDDLViscosity := false }

theorem carries_Surface : Carries putSurface getSurface Surface.Good Surface.received := by
  refine carries_via
    (carries_pair carries_int (carries_pair (carries_vec carries_SurfComp) (carries_pair
    (carries_vec carries_SurfCharge) (carries_pair carries_bool (carries_pair carries_bool
    (carries_pair carries_int (carries_pair carries_int (carries_pair carries_int
    (carries_pair carries_bool (carries_pair carries_dbl (carries_pair carries_dbl
    (carries_pair carries_dbl (carries_pair carries_dbl (carries_pair carries_bool
    (carries_pair carries_bool (carries_pair carries_ND (carries_pair carries_bool
    carries_int))))))))))))))))) ?_ ?_
  · intro x h
    simp only [Surface.Good] at h
    simpa using h
  · intro x _
    simp [Surface.received]

/-! ## Temperatures and pressures -/

/-- `cxxTemperature` (Temperature.h). -/
structure Temperature where
  nUser : Int
  temps : List ℚ
  countTemps : Int
  equalIncrements : Bool
  /-- `cxxNumKeyword::n_user_end` -/
  nUserEnd : Int
  /-- `cxxNumKeyword::description` -/
  description : Name

/-- `cxxTemperature::Serialize` (Temperature.cxx:385-397). -/
def putTemperature : Put Temperature :=
  putVia (fun x =>
     (x.nUser, x.temps, x.countTemps, x.equalIncrements))
    (putInt ▹ putVec putDbl ▹ putInt ▹ putBool)

/-- `cxxTemperature::Deserialize` (Temperature.cxx:400-417). -/
def getTemperature : Get Temperature :=
  getVia (fun
    | (nUser, temps, countTemps, equalIncrements) =>
      { nUser := nUser, temps := temps, countTemps := countTemps,
        equalIncrements := equalIncrements, nUserEnd := nUser, description := " ".toList })
    (getInt ◃ getVec getDbl ◃ getInt ◃ getBool)

/-- What arrives: the members that are not packed get the values given by the constructor or by
`Deserialize`. -/
def Temperature.received (x : Temperature) : Temperature :=
  { x with nUserEnd := x.nUser, description := " ".toList }

theorem carries_Temperature : Carries putTemperature getTemperature (fun _ => True) Temperature.received := by
  refine carries_via
    (carries_pair carries_int (carries_pair (carries_vec carries_dbl) (carries_pair
    carries_int carries_bool))) ?_ ?_
  · intro x _
    simp
  · intro x _
    simp [Temperature.received]

/-- `cxxPressure` (Pressure.h). -/
structure Pressure where
  nUser : Int
  pressures : List ℚ
  count : Int
  equalIncrements : Bool
  /-- `cxxNumKeyword::n_user_end` -/
  nUserEnd : Int
  /-- `cxxNumKeyword::description` -/
  description : Name

/-- `cxxPressure::Serialize` (Pressure.cxx:377-390). -/
def putPressure : Put Pressure :=
  putVia (fun x =>
     (x.nUser, x.pressures, x.count, x.equalIncrements))
    (putInt ▹ putVec putDbl ▹ putInt ▹ putBool)

/-- `cxxPressure::Deserialize` (Pressure.cxx:393-410). -/
def getPressure : Get Pressure :=
  getVia (fun
    | (nUser, pressures, count, equalIncrements) =>
      { nUser := nUser, pressures := pressures, count := count,
        equalIncrements := equalIncrements, nUserEnd := nUser, description := " ".toList })
    (getInt ◃ getVec getDbl ◃ getInt ◃ getBool)

/-- What arrives: the members that are not packed get the values given by the constructor or by
`Deserialize`. -/
def Pressure.received (x : Pressure) : Pressure :=
  { x with nUserEnd := x.nUser, description := " ".toList }

theorem carries_Pressure : Carries putPressure getPressure (fun _ => True) Pressure.received := by
  refine carries_via
    (carries_pair carries_int (carries_pair (carries_vec carries_dbl) (carries_pair
    carries_int carries_bool))) ?_ ?_
  · intro x _
    simp
  · intro x _
    simp [Pressure.received]

end Verif.Pack
