import Verif.Serial.NameDouble
import Verif.Raw.Exchange
import Verif.Raw.Gas
import Verif.Raw.Kinetics
import Verif.Raw.PP
import Verif.Raw.SS
import Verif.Raw.Surface
import Verif.Raw.Solution
import Verif.Raw.Blocks

/-!
# Packing of reactants

Model of the `Serialize` and `Deserialize` methods of the reactants
(`/repo/src/IPhreeqcPhast/IPhreeqc/phreeqcpp`). Writers and readers list the members in the
order of the two methods. A reactant that is read has an empty description and a range of one
number.
-/

namespace Verif.Serial

open Verif.OMap Verif.NameDouble Verif.Raw

/-- One write after another. -/
scoped infixr:60 " ▹ " => putPair

/-- One read after another. -/
scoped infixr:60 " ◃ " => getPair

/-- `n_user`, `n_user_end` and `description` of a reactant that was read, for example
Exchange.cxx:436-438. The text `" "` has no words. -/
def readHeadNum (n : Int) : Head := ⟨n, n, []⟩

/-- `map[key] = value` for the pairs read. -/
def mapOf {κ ν : Type} [LinearOrder κ] (l : List (κ × ν)) : SMap κ ν :=
  l.foldl (fun m p => OMap.insert m p.1 p.2) []

/-- `map[x.name] = x` for the elements read. -/
def mapBy {κ ν : Type} [LinearOrder κ] (key : ν → κ) (l : List ν) : SMap κ ν :=
  l.foldl (fun m x => OMap.insert m (key x) x) []

/-- `cxxExchComp::Serialize` (ExchComp.cxx:358-369). -/
def putExchComp : Put ExchComp :=
  putVia (fun c => (c.formula, c.totals, c.la, c.chargeBalance, c.phaseName, c.phaseProportion,
      c.rateName, c.formulaZ))
    (putWord ▹ putND ▹ putDbl ▹ putDbl ▹ putWord ▹ putDbl ▹ putWord ▹ putDbl)

/-- `cxxExchComp::Deserialize` (ExchComp.cxx:371-383). -/
def getExchComp : Get ExchComp :=
  getVia (fun (formula, totals, la, cb, phase, prop, rate, z) =>
      ⟨formula, totals, la, cb, phase, prop, rate, z⟩)
    (getWord ◃ getND ◃ getDbl ◃ getDbl ◃ getWord ◃ getDbl ◃ getWord ◃ getDbl)

/-- `cxxExchange::Serialize` (Exchange.cxx:413-429). -/
def putExchange : Put Exchange :=
  putVia (fun x => (x.head.nUser, x.comps, x.pitzer, x.newDef, x.solEq, x.nSolution, x.totals))
    (putInt ▹ putVec putExchComp ▹ putBool ▹ putBool ▹ putBool ▹ putInt ▹ putND)

/-- `cxxExchange::Deserialize` (Exchange.cxx:432-454). -/
def getExchange : Get Exchange :=
  getVia (fun (n, comps, pitzer, newDef, solEq, nSol, totals) =>
      ⟨readHeadNum n, pitzer, comps, newDef, solEq, nSol, totals⟩)
    (getInt ◃ getVec getExchComp ◃ getBool ◃ getBool ◃ getBool ◃ getInt ◃ getND)

/-- `cxxGasComp::Serialize` (GasComp.cxx:230-240). -/
def putGasComp : Put GasComp :=
  putVia (fun c => (c.name, c.moles, c.pRead, c.initialMoles, c.p, c.phi, c.f))
    (putWord ▹ putDbl ▹ putDbl ▹ putDbl ▹ putDbl ▹ putDbl ▹ putDbl)

/-- `cxxGasComp::Deserialize` (GasComp.cxx:242-253). -/
def getGasComp : Get GasComp :=
  getVia (fun (name, moles, pRead, init, p, phi, f) => ⟨name, moles, pRead, init, p, phi, f⟩)
    (getWord ◃ getDbl ◃ getDbl ◃ getDbl ◃ getDbl ◃ getDbl ◃ getDbl)

/-- `cxxGasPhase::Serialize` (GasPhase.cxx:590-611); `GP_PRESSURE` is 0 and `GP_VOLUME` 1. -/
def putGasPhase : Put GasPhase :=
  putVia (fun x => (x.head.nUser, (if x.type = 0 then (0 : Int) else 1), x.totalP, x.volume,
      x.comps, x.newDef, x.solEq, x.nSolution, x.temperature, x.totalMoles, x.vm, x.prIn,
      x.totals))
    (putInt ▹ putInt ▹ putDbl ▹ putDbl ▹ putVec putGasComp ▹ putBool ▹ putBool ▹ putInt ▹ putDbl
      ▹ putDbl ▹ putDbl ▹ putBool ▹ putND)

/-- `cxxGasPhase::Deserialize` (GasPhase.cxx:613-641). -/
def getGasPhase : Get GasPhase :=
  getVia (fun (n, type, totalP, volume, comps, newDef, solEq, nSol, temp, moles, vm, prIn,
        totals) =>
      ⟨readHeadNum n, if type = 0 then 0 else 1, totalP, volume, comps, newDef, solEq, nSol, temp,
        moles, vm, prIn, totals⟩)
    (getInt ◃ getInt ◃ getDbl ◃ getDbl ◃ getVec getGasComp ◃ getBool ◃ getBool ◃ getInt ◃ getDbl
      ◃ getDbl ◃ getDbl ◃ getBool ◃ getND)

/-- `cxxKineticsComp::Serialize` (KineticsComp.cxx:273-289). -/
def putKinComp : Put KinComp :=
  putVia (fun c => (c.name, c.namecoef, c.tol, c.m, c.m0, c.dParams, c.moles, c.initialMoles,
      c.reaction))
    (putWord ▹ putND ▹ putDbl ▹ putDbl ▹ putDbl ▹ putVec putDbl ▹ putDbl ▹ putDbl ▹ putND)

/-- `cxxKineticsComp::Deserialize` (KineticsComp.cxx:290-307). -/
def getKinComp : Get KinComp :=
  getVia (fun (name, coef, tol, m, m0, params, moles, init, reaction) =>
      ⟨name, tol, m, m0, coef, params, moles, init, reaction⟩)
    (getWord ◃ getND ◃ getDbl ◃ getDbl ◃ getDbl ◃ getVec getDbl ◃ getDbl ◃ getDbl ◃ getND)

/-- `cxxKinetics::Serialize` (cxxKinetics.cxx:543-567). -/
def putKinetics : Put Kinetics :=
  putVia (fun x => (x.head.nUser, x.comps, x.steps, x.count, x.equal, x.stepDivide, x.rk,
      x.badStepMax, x.useCvode, x.cvodeSteps, x.cvodeOrder, x.totals))
    (putInt ▹ putVec putKinComp ▹ putVec putDbl ▹ putInt ▹ putBool ▹ putDbl ▹ putInt ▹ putInt
      ▹ putBool ▹ putInt ▹ putInt ▹ putND)

/-- `cxxKinetics::Deserialize` (cxxKinetics.cxx:569-600). -/
def getKinetics : Get Kinetics :=
  getVia (fun (n, comps, steps, count, equal, divide, rk, bad, cvode, csteps, corder, totals) =>
      ⟨readHeadNum n, divide, rk, bad, cvode, csteps, corder, comps, equal, count, steps,
        totals⟩)
    (getInt ◃ getVec getKinComp ◃ getVec getDbl ◃ getInt ◃ getBool ◃ getDbl ◃ getInt ◃ getInt
      ◃ getBool ◃ getInt ◃ getInt ◃ getND)

/-- `cxxPPassemblageComp::Serialize` (PPassemblageComp.cxx:394-409). -/
def putPPComp : Put PPComp :=
  putVia (fun c => (c.name, c.addFormula, c.si, c.siOrg, c.moles, c.delta, c.initialMoles,
      c.forceEquality, c.dissolveOnly, c.precipitateOnly, c.totals))
    (putWord ▹ putWord ▹ putDbl ▹ putDbl ▹ putDbl ▹ putDbl ▹ putDbl ▹ putBool ▹ putBool ▹ putBool
      ▹ putND)

/-- `cxxPPassemblageComp::Deserialize` (PPassemblageComp.cxx:411-425). -/
def getPPComp : Get PPComp :=
  getVia (fun (name, add, si, siOrg, moles, delta, init, force, dissolve, precipitate, totals) =>
      ⟨name, add, si, moles, force, dissolve, precipitate, siOrg, delta, init, totals⟩)
    (getWord ◃ getWord ◃ getDbl ◃ getDbl ◃ getDbl ◃ getDbl ◃ getDbl ◃ getBool ◃ getBool ◃ getBool
      ◃ getND)

/-- `cxxPPassemblage::Serialize` (PPassemblage.cxx:327-343): the keys of the map are not
written. -/
def putPP : Put PPAssemblage :=
  putVia (fun x => (x.head.nUser, x.newDef, x.comps.map Prod.snd, x.eltList, x.totals))
    (putInt ▹ putBool ▹ putVec putPPComp ▹ putND ▹ putND)

/-- `cxxPPassemblage::Deserialize` (PPassemblage.cxx:346-368). -/
def getPP : Get PPAssemblage :=
  getVia (fun (n, newDef, comps, eltList, totals) =>
      ⟨readHeadNum n, newDef, mapBy PPComp.name comps, eltList, totals⟩)
    (getInt ◃ getBool ◃ getVec getPPComp ◃ getND ◃ getND)

/-- `cxxSScomp::Serialize` (SScomp.cxx:246-263). -/
def putSSComp : Put SSComp :=
  putVia (fun c => (c.name, c.moles, c.initialMoles, c.initMoles, c.delta, c.fraction,
      c.logLambda, c.logFraction, c.dn, c.dnc, c.dnb))
    (putWord ▹ putDbl ▹ putDbl ▹ putDbl ▹ putDbl ▹ putDbl ▹ putDbl ▹ putDbl ▹ putDbl ▹ putDbl
      ▹ putDbl)

/-- `cxxSScomp::Deserialize` (SScomp.cxx:265-282). -/
def getSSComp : Get SSComp :=
  getVia (fun (name, moles, initial, init, delta, frac, lambda, logFrac, dn, dnc, dnb) =>
      ⟨name, moles, initial, init, delta, frac, lambda, logFrac, dn, dnc, dnb⟩)
    (getWord ◃ getDbl ◃ getDbl ◃ getDbl ◃ getDbl ◃ getDbl ◃ getDbl ◃ getDbl ◃ getDbl ◃ getDbl
      ◃ getDbl)

/-- The parameters `p` of a solid solution, a vector of four numbers (SS.cxx:534-540). -/
def putFour : Put (ℚ × ℚ × ℚ × ℚ) := putVia (fun (a, b, c, d) => [a, b, c, d]) (putVec putDbl)

/-- Reading of `p` (SS.cxx:573-580). Simplification: the vector has four elements, another
length leaves the model. -/
def getFour : Get (ℚ × ℚ × ℚ × ℚ) := fun d s =>
  match getVec getDbl d s with
  | .ok ([a, b, c, e], s') => .ok ((a, b, c, e), s')
  | .ok _ => .ub
  | .throw => .throw
  | .ub => .ub

/-- `cxxSS::Serialize` (SS.cxx:512-546). -/
def putSS : Put SS :=
  putVia (fun x => (x.name, x.ag0, x.ag1, x.comps, x.a0, x.a1, x.miscibility, x.spinodal, x.tk,
      x.xb1, x.xb2, x.inputCase, x.p, x.totalMoles, x.dn, x.ssIn, x.totals))
    (putWord ▹ putDbl ▹ putDbl ▹ putVec putSSComp ▹ putDbl ▹ putDbl ▹ putBool ▹ putBool ▹ putDbl
      ▹ putDbl ▹ putDbl ▹ putInt ▹ putFour ▹ putDbl ▹ putDbl ▹ putBool ▹ putND)

/-- `cxxSS::Deserialize` (SS.cxx:548-586). -/
def getSS : Get SS :=
  getVia (fun (name, ag0, ag1, comps, a0, a1, misc, spin, tk, xb1, xb2, case, p, moles, dn, ssIn,
        totals) =>
      ⟨name, comps, tk, case, p, ag0, ag1, a0, a1, xb1, xb2, misc, spin, ssIn, moles, dn,
        totals⟩)
    (getWord ◃ getDbl ◃ getDbl ◃ getVec getSSComp ◃ getDbl ◃ getDbl ◃ getBool ◃ getBool ◃ getDbl
      ◃ getDbl ◃ getDbl ◃ getInt ◃ getFour ◃ getDbl ◃ getDbl ◃ getBool ◃ getND)

/-- `cxxSSassemblage::Serialize` (SSassemblage.cxx:267-283): the keys of the map are not
written. -/
def putSSAssemblage : Put SSAssemblage :=
  putVia (fun x => (x.head.nUser, x.sss.map Prod.snd, x.newDef, x.totals))
    (putInt ▹ putVec putSS ▹ putBool ▹ putND)

/-- `cxxSSassemblage::Deserialize` (SSassemblage.cxx:285-307). -/
def getSSAssemblage : Get SSAssemblage :=
  getVia (fun (n, sss, newDef, totals) => ⟨readHeadNum n, mapBy SS.name sss, newDef, totals⟩)
    (getInt ◃ getVec getSS ◃ getBool ◃ getND)

/-- `cxxSurfaceComp::Serialize` (SurfaceComp.cxx:459-474). -/
def putSurfComp : Put SurfComp :=
  putVia (fun c => (c.formula, c.formulaZ, c.moles, c.totals, c.la, c.chargeName,
      c.chargeBalance, c.phaseName, c.phaseProportion, c.rateName, c.dw, c.masterElement))
    (putWord ▹ putDbl ▹ putDbl ▹ putND ▹ putDbl ▹ putWord ▹ putDbl ▹ putWord ▹ putDbl ▹ putWord
      ▹ putDbl ▹ putWord)

/-- `cxxSurfaceComp::Deserialize` (SurfaceComp.cxx:476-491). -/
def getSurfComp : Get SurfComp :=
  getVia (fun (formula, z, moles, totals, la, charge, cb, phase, prop, rate, dw, master) =>
      ⟨formula, z, moles, la, cb, phase, rate, prop, dw, charge, master, totals⟩)
    (getWord ◃ getDbl ◃ getDbl ◃ getND ◃ getDbl ◃ getWord ◃ getDbl ◃ getWord ◃ getDbl ◃ getWord
      ◃ getDbl ◃ getWord)

/-- The entries of a map by number (SurfaceCharge.cxx:524-532, Solution.cxx:1641-1673). -/
def putIntMap : Put (SMap Int ℚ) := putVec (putInt ▹ putDbl)

/-- Reading of a map by number (SurfaceCharge.cxx:565-574, Solution.cxx:1730-1759). -/
def getIntMap : Get (SMap Int ℚ) := getVia mapOf (getVec (getInt ◃ getDbl))

/-- `cxxSurfaceCharge::Serialize` (SurfaceCharge.cxx:495-533) with `cxxSurfDL::Serialize`
(SurfaceCharge.cxx:578-585). `z_gMCD_map` is not written. -/
def putSurfCharge : Put SurfCharge :=
  putVia (fun c => (c.name, c.specificArea, c.grams, c.chargeBalance, c.massWater, c.laPsi,
      c.capacitance0, c.capacitance1, c.dlTotals, c.sigma0, c.sigma1, c.sigma2, c.sigmaddl,
      c.fFree, c.viscosity, c.gMap, c.dlSpecies))
    (putWord ▹ putDbl ▹ putDbl ▹ putDbl ▹ putDbl ▹ putDbl ▹ putDbl ▹ putDbl ▹ putND ▹ putDbl
      ▹ putDbl ▹ putDbl ▹ putDbl ▹ putDbl ▹ putDbl ▹ putVec (putDbl ▹ putDbl ▹ putDbl ▹ putDbl)
      ▹ putIntMap)

/-- `cxxSurfaceCharge::Deserialize` (SurfaceCharge.cxx:535-577) with `cxxSurfDL::Deserialize`
(SurfaceCharge.cxx:587-594). -/
def getSurfCharge : Get SurfCharge :=
  getVia (fun (name, area, grams, cb, water, psi, cap0, cap1, dlTotals, s0, s1, s2, sd, free,
        visc, g, dl) =>
      ⟨name, area, grams, cb, water, free, visc, psi, cap0, cap1, dlTotals, dl, s0, s1, s2, sd,
        mapOf g, []⟩)
    (getWord ◃ getDbl ◃ getDbl ◃ getDbl ◃ getDbl ◃ getDbl ◃ getDbl ◃ getDbl ◃ getND ◃ getDbl
      ◃ getDbl ◃ getDbl ◃ getDbl ◃ getDbl ◃ getDbl ◃ getVec (getDbl ◃ getDbl ◃ getDbl ◃ getDbl)
      ◃ getIntMap)

/-- `cxxSurface::Serialize` (Surface.cxx:728-765). `calc_DDL_viscosity` is not written. -/
def putSurface : Put Surface :=
  putVia (fun x => (x.head.nUser, x.comps, x.charges, x.newDef, x.tidied, x.type, x.dlType,
      x.sitesUnits, x.onlyCounterIons, x.thickness, x.debyeLengths, x.viscosity, x.limit,
      x.correctD, x.transport, x.totals, x.solEq, x.nSolution))
    (putInt ▹ putVec putSurfComp ▹ putVec putSurfCharge ▹ putBool ▹ putBool ▹ putInt ▹ putInt
      ▹ putInt ▹ putBool ▹ putDbl ▹ putDbl ▹ putDbl ▹ putDbl ▹ putBool ▹ putBool ▹ putND ▹ putBool
      ▹ putInt)

/-- `cxxSurface::Deserialize` (Surface.cxx:768-812). `calc_DDL_viscosity` keeps the value of the
constructor, `false` (Surface.cxx:42). -/
def getSurface : Get Surface :=
  getVia (fun (n, comps, charges, newDef, tidied, type, dlType, units, counter, thick, debye,
        visc, limit, corr, transport, totals, solEq, nSol) =>
      ⟨readHeadNum n, type, dlType, counter, corr, thick, debye, visc, limit, comps, charges,
        newDef, tidied, units, solEq, nSol, transport, totals, false⟩)
    (getInt ◃ getVec getSurfComp ◃ getVec getSurfCharge ◃ getBool ◃ getBool ◃ getInt ◃ getInt
      ◃ getInt ◃ getBool ◃ getDbl ◃ getDbl ◃ getDbl ◃ getDbl ◃ getBool ◃ getBool ◃ getND ◃ getBool
      ◃ getInt)

/-- A solution with the member `new_def`, which dump files do not hold. -/
structure SolState extends Solution where
  newDef : Bool
  deriving DecidableEq

/-- `cxxSolutionIsotope::Serialize` (SolutionIsotope.cxx:296-308) after the key of the map
(Solution.cxx:1634). Simplification: `isotope_name` is the key. -/
def putIsotope : Put (Name × Isotope) :=
  putVia (fun (k, i) => (k, i.number, i.elt, k, i.total, i.ratio, i.uncertainty,
      i.uncertaintyDefined, i.xUncertainty, i.coef))
    (putWord ▹ putDbl ▹ putWord ▹ putWord ▹ putDbl ▹ putDbl ▹ putDbl ▹ putBool ▹ putDbl ▹ putDbl)

/-- `cxxSolutionIsotope::Deserialize` (SolutionIsotope.cxx:309-321) after the key of the map
(Solution.cxx:1720). The isotope name read is not kept in the model. -/
def getIsotope : Get (Name × Isotope) :=
  getVia (fun (k, number, elt, _, total, ratio, unc, defined, xunc, coef) =>
      (k, ⟨number, elt, total, ratio, defined, unc, xunc, coef⟩))
    (getWord ◃ getDbl ◃ getWord ◃ getWord ◃ getDbl ◃ getDbl ◃ getDbl ◃ getBool ◃ getDbl ◃ getDbl)

/-- `cxxSolution::Serialize` (Solution.cxx:1587-1674). `viscos_0` is not written. -/
def putSolution : Put SolState :=
  putVia (fun x => (x.head.nUser, x.newDef, x.patm, x.potV, x.tc, x.ph, x.pe, x.mu, x.ah2o,
      x.totalH, x.totalO, x.cb, x.massWater, x.density, x.viscosity, x.solnVol, x.totalAlk,
      x.totals, x.activities, x.gammas, x.isotopes, x.speciesMap, x.logGammaMap,
      x.logMolalMap))
    (putInt ▹ putBool ▹ putDbl ▹ putDbl ▹ putDbl ▹ putDbl ▹ putDbl ▹ putDbl ▹ putDbl ▹ putDbl
      ▹ putDbl ▹ putDbl ▹ putDbl ▹ putDbl ▹ putDbl ▹ putDbl ▹ putDbl ▹ putND ▹ putND ▹ putND
      ▹ putVec putIsotope ▹ putIntMap ▹ putIntMap ▹ putIntMap)

/-- `cxxSolution::Deserialize` (Solution.cxx:1677-1760). `viscos_0` keeps the value of the
constructor, 1 (Solution.cxx:51). -/
def getSolution : Get SolState :=
  getVia (fun (n, newDef, patm, potV, tc, ph, pe, mu, ah2o, totalH, totalO, cb, massWater,
        density, viscosity, solnVol, totalAlk, totals, activities, gammas, isotopes, species,
        logGamma, logMolal) =>
      { head := readHeadNum n, tc := tc, patm := patm, potV := potV, totalH := totalH,
        totalO := totalO, cb := cb, density := density, viscosity := viscosity, viscos0 := 1,
        totals := totals, isotopes := mapOf isotopes, ph := ph, pe := pe, mu := mu,
        ah2o := ah2o, massWater := massWater, solnVol := solnVol, totalAlk := totalAlk,
        activities := activities, gammas := gammas, speciesMap := species,
        logGammaMap := logGamma, logMolalMap := logMolal, newDef := newDef })
    (getInt ◃ getBool ◃ getDbl ◃ getDbl ◃ getDbl ◃ getDbl ◃ getDbl ◃ getDbl ◃ getDbl ◃ getDbl
      ◃ getDbl ◃ getDbl ◃ getDbl ◃ getDbl ◃ getDbl ◃ getDbl ◃ getDbl ◃ getND ◃ getND ◃ getND
      ◃ getVec getIsotope ◃ getIntMap ◃ getIntMap ◃ getIntMap)

/-- `cxxTemperature::Serialize` (Temperature.cxx:384-397) and `cxxPressure::Serialize`
(Pressure.cxx:376-390). -/
def putSteps : Put StepList :=
  putVia (fun x => (x.head.nUser, x.values, x.count, x.equal))
    (putInt ▹ putVec putDbl ▹ putInt ▹ putBool)

/-- `cxxTemperature::Deserialize` (Temperature.cxx:399-417) and `cxxPressure::Deserialize`
(Pressure.cxx:392-410). -/
def getSteps : Get StepList :=
  getVia (fun (n, values, count, equal) => ⟨readHeadNum n, values, count, equal⟩)
    (getInt ◃ getVec getDbl ◃ getInt ◃ getBool)

end Verif.Serial
