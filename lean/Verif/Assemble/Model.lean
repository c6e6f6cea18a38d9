import Mathlib.Data.Rat.Defs
import Mathlib.Algebra.Order.Ring.Rat
import Mathlib.Algebra.Order.Group.Unbundled.Abs

/-!
# What a reaction calculation starts from

`step` (`/repo/src/IPhreeqcPhast/IPhreeqc/phreeqcpp/step.cpp:28-307`) adds up the solution or the mixture of a cell,
its reaction, its kinetic reaction, exchanger, surface and gas, takes a little from minerals and solid solutions for
elements that would be missing, tests that no element is negative and stores the sum as solution -1. All file names
below are in that directory.

Simplifications. Doubles are rational numbers; a division by zero in `add_mix`, which gives NaN there, is an outcome
of its own. An element of the data base is the master species of that name. Starting guesses for activities
(`s->la`, `s->lg`) are not accumulated; only the marks of missing elements are modelled (`ppMarks`, `ssMarks`).
Lists of elements are not sorted and combined before they are added (`elt_list_combine`, structures.cpp:472-512),
which gives the same sums. Not modelled: `state == TRANSPORT` (step.cpp:124-130; `RUN_CELLS` uses `REACTION`,
ReadClass.cxx:685), `potV`, isotopes, the volumes of gases, warnings, and what `step_save_surf` and `step_save_exch` copy.
-/

namespace Verif.Assemble

abbrev Name := String

/-- Elements with amounts: `cxxNameDouble`, `class elt_list`. -/
abbrev Amounts := List (Name × ℚ)

/-- Outcome: a value; an error that stops the calculation (`error_msg(.., STOP)`); no number; undefined behaviour
(null pointer, failed `assert`). -/
inductive Res (α : Type) where
  | ok (a : α)
  | stop
  | nan
  | ub
  deriving Repr, DecidableEq

/-- Go on with a value. -/
def Res.bind {α β : Type} (r : Res α) (f : α → Res β) : Res β :=
  match r with
  | .ok a => f a
  | .stop => .stop
  | .nan => .nan
  | .ub => .ub

/-- The aqueous species that have an own role: `s_hplus` (and `s_h3oplus`, which is the same species when it exists
alone, tidy.cpp:399-407), `s_h2o`, `s_eminus`. -/
inductive Sp where
  | hplus | h2o | eminus | other
  deriving Repr, DecidableEq

/-- `s->type` as far as `xsolution_save` asks for it: aqueous; exchange, surface site or surface potential. -/
inductive Typ where
  | aq | ex | surf | psi
  deriving Repr, DecidableEq

/-- `class master`: the element name, the species, its role and its type. -/
structure Master where
  name : Name
  species : Name
  sp : Sp
  typ : Typ
  deriving Repr, DecidableEq

/-- The data base. `first` is the element of a name with a redox state, `get_elt`, parse.cpp:487-556 ("Fe" for "Fe(2)").
`phase` gives the elements of a phase (`next_elt`, which is what its `formula` holds), `formula` those of a formula
(`get_elts_in_species`, parse.cpp:558-695). `least` is `MIN_TOTAL`, `leastSS` is `MIN_TOTAL_SS` (Phreeqc.cpp:494-495;
both can be set with KNOBS, read.cpp:7973-7974). -/
structure Db where
  masters : List Master
  first : Name → Name
  phase : Name → Option Amounts
  formula : Name → Amounts
  least : ℚ
  leastSS : ℚ

/-- `master_bsearch`, and `elt->master` (tidy.cpp:2408). -/
def Db.exact (db : Db) (n : Name) : Option Master := db.masters.find? fun m => m.name = n

/-- `master_bsearch_primary`, structures.cpp:930-961, and `elt->primary` (tidy.cpp:2416). -/
def Db.prim (db : Db) (n : Name) : Option Master := db.exact (db.first n)

/-- Properties that are averaged: `tc_x`, `ph_x`, `patm_x`, `solution_pe_x`, `mu_x`, `ah2o_x`, `viscos`, `viscos_0`,
`density_x`. -/
inductive Inten where
  | tc | ph | patm | pe | mu | ah2o | visc | visc0 | dens
  deriving Repr, DecidableEq

/-- The global variables a step adds up in: `master[i]->total`, `total_h_x`, `total_o_x`, `cb_x`, `mass_water_aq_x`, the
averaged properties, and `input_error`. -/
structure St where
  tot : Name → ℚ
  h : ℚ
  o : ℚ
  cb : ℚ
  water : ℚ
  inten : Inten → ℚ
  errors : Nat

/-- `xsolution_zero`, step.cpp:310-360; `input_error` is not changed. -/
def zero (errors : Nat) : St :=
  { tot := fun _ => 0, h := 0, o := 0, cb := 0, water := 0, inten := fun _ => 0, errors }

/-- `master->total += d`. -/
def St.addTot (st : St) (n : Name) (d : ℚ) : St :=
  { st with tot := fun k => if k = n then st.tot k + d else st.tot k }

/-- Add moles of an element: hydrogen and oxygen have their own sums, as in step.cpp:466-477, 559-570, 598-609, 841-852,
1010-1021, 1131-1142, 1230-1241, 1277-1288. -/
def St.addElt (st : St) (m : Master) (d : ℚ) : St :=
  match m.sp with
  | .hplus => { st with h := st.h + d }
  | .h2o => { st with o := st.o + d }
  | _ => st.addTot m.name d

/-- `cxxSolution` as far as it is used. -/
structure Solution where
  totals : Amounts
  h : ℚ
  o : ℚ
  cb : ℚ
  water : ℚ
  inten : Inten → ℚ

/-- One turn of the loop over the totals of a solution, step.cpp:396-408. An element that is not defined counts as two
errors, one of them in `master_bsearch_primary` (structures.cpp:953-959). -/
def addSolutionElt (db : Db) (ext : ℚ) (st : St) (x : Name × ℚ) : St :=
  match db.prim x.1 with
  | some m => st.addTot m.name (x.2 * ext)
  | none => { st with errors := st.errors + 2 }

/-- `add_solution`, step.cpp:362-439. -/
def addSolution (db : Db) (s : Solution) (ext inten : ℚ) (st : St) : St :=
  s.totals.foldl (addSolutionElt db ext)
    { st with
      inten := fun i => st.inten i + s.inten i * inten
      h := st.h + s.h * ext
      o := st.o + s.o * ext
      cb := st.cb + s.cb * ext
      water := st.water + s.water * ext }

/-- The sums of the first loop of `add_mix`. -/
structure MixSum where
  water : ℚ
  posWater : ℚ
  positive : Nat
  errors : Nat

/-- One turn of the first loop of `add_mix`, step.cpp:638-657; the sums of the fractions alone are not used in the end. -/
def mixSum (sols : Int → Option Solution) (a : MixSum) (x : Int × ℚ) : MixSum :=
  match sols x.1 with
  | none => { a with errors := a.errors + 1 }
  | some s =>
    if x.2 > 0 then
      { a with
        water := a.water + x.2 * s.water
        posWater := a.posWater + x.2 * s.water
        positive := a.positive + 1 }
    else { a with water := a.water + x.2 * s.water }

/-- The weight of a solution in the averages, step.cpp:669-685. For a fraction that is not positive the code sets
`intensive` to zero, but what it passes on is `intensive_water`. -/
def weight (a : MixSum) (n : Nat) (f : ℚ) (s : Solution) : Option ℚ :=
  if a.positive < n ∧ f > 0 then
    if a.posWater = 0 then none else some (f * s.water / a.posWater)
  else
    if a.water = 0 then none else some (f * s.water / a.water)

/-- One turn of the second loop of `add_mix`, step.cpp:658-687. -/
def mixOne (db : Db) (sols : Int → Option Solution) (a : MixSum) (n : Nat) (r : Res St) (x : Int × ℚ) : Res St :=
  r.bind fun st =>
    match sols x.1 with
    | none => .ok { st with errors := st.errors + 1 }
    | some s =>
      match weight a n x.2 s with
      | none => .nan
      | some w => .ok (addSolution db s x.2 w st)

/-- `add_mix`, step.cpp:616-689. -/
def addMix (db : Db) (sols : Int → Option Solution) (mix : List (Int × ℚ)) (st : St) : Res St :=
  let a := mix.foldl (mixSum sols) { water := 0, posWater := 0, positive := 0, errors := st.errors }
  mix.foldl (mixOne db sols a mix.length) (.ok { st with errors := a.errors })

/-- What a name that is not in the data base leads to. -/
inductive Unknown where
  | skip | stop | ub
  deriving Repr, DecidableEq

/-- Add a list of elements, each times a factor, to the sums. -/
def addElts (db : Db) (u : Unknown) (l : Amounts) (f : ℚ) (st : St) : Res St :=
  match l with
  | [] => .ok st
  | x :: l =>
    match db.prim x.1 with
    | some m => addElts db u l f (st.addElt m (x.2 * f))
    | none =>
      match u with
      | .skip => addElts db u l f st
      | .stop => .stop
      | .ub => .ub

/-- `cxxExchComp`: the elements, and the charge. -/
structure ExComp where
  totals : Amounts
  charge : ℚ

/-- `cxxExchange`. -/
structure Exchange where
  comps : List ExComp
  newDef : Bool

/-- The first loop of `add_exchange`, step.cpp:455-479: an element without primary master species fails an `assert`. -/
def addExComps (db : Db) : List ExComp → St → Res St
  | [], st => .ok st
  | c :: l, st => (addElts db .ub c.totals 1 st).bind (addExComps db l)

/-- `add_exchange`, step.cpp:440-510. The charge is added only when the exchanger has been calculated before. -/
def addExchange (db : Db) (x : Exchange) (st : St) : Res St :=
  (addExComps db x.comps st).bind fun st =>
    if x.newDef then .ok st
    else .ok { st with cb := st.cb + (x.comps.map fun c => c.charge).sum }

/-- `cxxSurface::SURFACE_TYPE`, Surface.h:19-20; `edl` is any of `DDL`, `CD_MUSIC` and `CCM`. -/
inductive SurfType where
  | unknown | noEdl | edl
  deriving Repr, DecidableEq

/-- `cxxSurfaceComp`: the element of the site, the elements, and the charge. -/
structure SurfComp where
  master : Name
  totals : Amounts
  charge : ℚ

/-- `cxxSurfaceCharge`: the charge, and the elements of the diffuse layer. -/
structure SurfCharge where
  charge : ℚ
  diffuse : Amounts

/-- `cxxSurface`; `layer` when `dl_type` is not `NO_DL`. -/
structure Surface where
  type : SurfType
  layer : Bool
  newDef : Bool
  comps : List SurfComp
  charges : List SurfCharge

/-- The loop over the sites, step.cpp:525-572. -/
def addSurfComps (db : Db) (t : SurfType) : List SurfComp → St → Res St
  | [], st => .ok st
  | c :: l, st =>
    match db.exact c.master with
    | none => .stop
    | some _ =>
      (addElts db .stop c.totals 1
        (if t = .noEdl then { st with cb := st.cb + c.charge } else st)).bind (addSurfComps db t l)

/-- Elements of the diffuse layer, step.cpp:590-611: here the master species of the name itself is used, without a test. -/
def addDiffuse (db : Db) : Amounts → St → Res St
  | [], st => .ok st
  | x :: l, st =>
    match db.exact x.1 with
    | none => .ub
    | some m => addDiffuse db l (st.addElt m x.2)

/-- The loop over the charges, step.cpp:575-612. -/
def addCharges (db : Db) (layer : Bool) : List SurfCharge → St → Res St
  | [], st => .ok st
  | c :: l, st =>
    (if layer then addDiffuse db c.diffuse { st with cb := st.cb + c.charge }
      else .ok { st with cb := st.cb + c.charge }).bind (addCharges db layer l)

/-- `add_surface`, step.cpp:512-614. -/
def addSurface (db : Db) (x : Surface) (st : St) : Res St :=
  (addSurfComps db x.type x.comps st).bind fun st =>
    if x.type = .edl then addCharges db (x.layer && !x.newDef) x.charges st else .ok st

/-- `cxxGasPhase`: names and moles of the gases, and the pressure when it is fixed (`GP_PRESSURE`). -/
structure Gas where
  comps : Amounts
  pressure : Option ℚ

/-- The gases, step.cpp:1105-1143: a gas that is not in the data base is an error and is left out. -/
def addGases (db : Db) : Amounts → St → Res St
  | [], st => .ok st
  | x :: l, st =>
    match db.phase x.1 with
    | none => addGases db l { st with errors := st.errors + 1 }
    | some e => (addElts db .ub e x.2 st).bind (addGases db l)

/-- `patm_x`, or another averaged property, is set. -/
def St.setInten (st : St) (i : Inten) (v : ℚ) : St :=
  { st with inten := fun j => if j = i then v else st.inten j }

/-- `add_gas_phase`, step.cpp:1087-1150. -/
def addGas (db : Db) (x : Gas) (st : St) : Res St :=
  (addGases db x.comps st).bind fun st =>
    match x.pressure with
    | some p => if |p - st.inten .patm| > 1 / 100 then .ok (st.setInten .patm p) else .ok st
    | none => .ok st

/-- `cxxReaction`: the reactants, the size of the step before the units are applied (`step_x`, step.cpp:913-973, which is
`Verif.Steps`), and the first letter of the units. -/
structure Reaction where
  reactants : Amounts
  size : ℚ
  units : Char

/-- step.cpp:977-989. -/
def unitFactor (c : Char) : ℚ :=
  if c = 'm' then 1 / 1000 else if c = 'u' then 1 / 1000000 else if c = 'n' then 1 / 1000000000 else 1

/-- `reaction_calc`, step.cpp:1026-1086: the elements of the reactants, which are phases or formulas. -/
def reactionElts (db : Db) : Amounts → Amounts
  | [] => []
  | x :: l =>
    (match db.phase x.1 with
      | some e => e.map fun y => (y.1, y.2 * x.2)
      | none => (db.formula x.1).map fun y => (y.1, y.2 * x.2)) ++ reactionElts db l

/-- Elements of a reaction that are not in the data base, each an error, step.cpp:1071-1082. -/
def reactionErrors (db : Db) (l : Amounts) : Nat := (l.filter fun y => (db.exact y.1).isNone).length

/-- `add_reaction`, step.cpp:889-1025. -/
def addReaction (db : Db) (r : Reaction) (fraction : ℚ) (st : St) : Res St :=
  let l := reactionElts db r.reactants
  addElts db .skip l (r.size * unitFactor r.units * fraction) { st with errors := st.errors + reactionErrors db l }

/-- `add_kinetics`, step.cpp:1248-1292. -/
def addKinetics (db : Db) (l : Amounts) (st : St) : Res St := addElts db .stop l 1 st

/-- `cxxPPassemblageComp`: phase, alternative formula, whether it may only precipitate, moles, and moles taken. -/
structure PPComp where
  name : Name
  addFormula : Option Name
  precipitateOnly : Bool
  moles : ℚ
  delta : ℚ
  deriving Repr, DecidableEq

/-- `cxxPPassemblage`: `elts` are the names of `eltList` (tidy.cpp:1566-1616). -/
structure PP where
  comps : List PPComp
  elts : List Name
  deriving Repr, DecidableEq

/-- Elements of what a mineral reacts to, step.cpp:789-799; `none` is a null pointer. -/
def ppElts (db : Db) (c : PPComp) : Option Amounts :=
  match c.addFormula with
  | some f => some (db.formula f)
  | none => db.phase c.name

/-- `check_pp_assemblage`, step.cpp:858-888: all elements are there. -/
def checkPP (db : Db) (tot : Name → ℚ) : List Name → Bool
  | [] => true
  | n :: l =>
    match db.prim n with
    | none => false
    | some m =>
      if m.sp = .h2o ∨ m.sp = .hplus then checkPP db tot l
      else if tot m.name > db.least then checkPP db tot l
      else false

/-- The loop for the amount that is needed, step.cpp:802-825 and 1190-1214. An element without primary master species is
a null pointer, a coefficient of zero a division by zero. -/
def need (db : Db) (least : ℚ) (tot : Name → ℚ) : Amounts → ℚ → Res ℚ
  | [], a => .ok a
  | x :: l, a =>
    match db.prim x.1 with
    | none => .ub
    | some m =>
      if m.sp = .hplus ∨ m.sp = .h2o then need db least tot l a
      else if tot m.name > least then need db least tot l a
      else if x.2 = 0 then .nan
      else
        let t := (-(tot m.name) + 1 / 10000000000) / x.2
        need db least tot l (if a < t then t else a)

/-- The turn of the loop for one mineral, step.cpp:779-855. -/
def addPPComp (db : Db) (c : PPComp) (st : St) : Res (PPComp × St) :=
  if c.precipitateOnly then .ok (c, st)
  else
    match ppElts db c with
    | none => .ub
    | some l =>
      if c.moles > 0 then
        (need db db.least st.tot l 0).bind fun a =>
          let a := if c.moles < a then c.moles else a
          if a > 0 then
            (addElts db .ub l a st).bind fun st => .ok ({ c with moles := c.moles - a, delta := a }, st)
          else .ok ({ c with delta := 0 }, st)
      else .ok ({ c with delta := 0 }, st)

/-- The loop over the minerals. -/
def addPPComps (db : Db) : List PPComp → St → Res (List PPComp × St)
  | [], st => .ok ([], st)
  | c :: l, st =>
    (addPPComp db c st).bind fun r => (addPPComps db l r.2).bind fun q => .ok (r.1 :: q.1, q.2)

/-- `add_pp_assemblage`, step.cpp:751-857. -/
def addPP (db : Db) (x : PP) (st : St) : Res (PP × St) :=
  if checkPP db st.tot x.elts then .ok (x, st)
  else (addPPComps db x.comps st).bind fun r => .ok ({ x with comps := r.1 }, r.2)

/-- `cxxSScomp`. -/
structure SSComp where
  name : Name
  moles : ℚ
  delta : ℚ
  deriving Repr, DecidableEq

/-- The turn of the inner loop for one component of a solid solution, step.cpp:1177-1244. -/
def addSSComp (db : Db) (c : SSComp) (st : St) : Res (SSComp × St) :=
  if c.moles > 0 then
    match db.phase c.name with
    | none => .ub
    | some l =>
      (need db db.leastSS st.tot l 0).bind fun a =>
        let a := if c.moles < a then c.moles else a
        if a > 0 then
          (addElts db .ub l a st).bind fun st => .ok ({ c with moles := c.moles - a, delta := a }, st)
        else .ok ({ c with delta := 0 }, st)
  else .ok ({ c with delta := 0 }, st)

/-- The inner loop. -/
def addSSComps (db : Db) : List SSComp → St → Res (List SSComp × St)
  | [], st => .ok ([], st)
  | c :: l, st =>
    (addSSComp db c st).bind fun r => (addSSComps db l r.2).bind fun q => .ok (r.1 :: q.1, q.2)

/-- `add_ss_assemblage`, step.cpp:1151-1247: the components of all solid solutions. -/
def addSS (db : Db) : List (List SSComp) → St → Res (List (List SSComp) × St)
  | [], st => .ok ([], st)
  | c :: l, st =>
    (addSSComps db c st).bind fun r => (addSS db l r.2).bind fun q => .ok (r.1 :: q.1, q.2)

/-- The elements of a formula that are not there, step.cpp:1325-1352, 1397-1436, 1471-1497. -/
def missing (db : Db) (least : ℚ) (tot : Name → ℚ) : Amounts → Res (List Name)
  | [] => .ok []
  | x :: l =>
    match db.prim x.1 with
    | none => .ub
    | some m =>
      (missing db least tot l).bind fun r =>
        if m.sp = .hplus ∨ m.sp = .h2o then .ok r
        else if tot m.name > least then .ok r
        else .ok (m.name :: r)

/-- The species of all master species of an element, whose activity is made small, step.cpp:1428-1434 and 1503-1509. -/
def marksOf (db : Db) (p : Name) : List Name :=
  (db.masters.filter fun m => decide ((db.prim m.name).map Master.name = some p)).map Master.species

/-- The loop of `pp_assemblage_check`, step.cpp:1376-1438: `delta` of minerals without moles is set to zero, and the species
of the elements they lack are marked. The warning reads the name of the phase. -/
def ppCheckComps (db : Db) (tot : Name → ℚ) : List PPComp → Res (List PPComp × List Name)
  | [] => .ok ([], [])
  | c :: l =>
    (ppCheckComps db tot l).bind fun r =>
      if c.moles ≤ 0 then
        match ppElts db c with
        | none => .ub
        | some e =>
          (missing db db.least tot e).bind fun q =>
            if q ≠ [] ∧ db.phase c.name = none then .ub
            else .ok ({ c with delta := 0 } :: r.1, q.flatMap (marksOf db) ++ r.2)
      else .ok (c :: r.1, r.2)

/-- `pp_assemblage_check`, step.cpp:1357-1440. -/
def ppCheck (db : Db) (tot : Name → ℚ) (x : PP) : Res (PP × List Name) :=
  if checkPP db tot x.elts then .ok (x, [])
  else (ppCheckComps db tot x.comps).bind fun r => .ok ({ x with comps := r.1 }, r.2)

/-- The loop over the components of one solid solution in `ss_assemblage_check`, step.cpp:1461-1512, from index `k`. The loop
that marks the species of an element counts with the same variable `k`, which is then the number of master species.
`nan` when the loop does not end within `fuel` turns. -/
def ssCheckFrom (db : Db) (tot : Name → ℚ) (comps : List SSComp) : Nat → Nat → Res (List Name)
  | 0, _ => .nan
  | fuel + 1, k =>
    match comps[k]? with
    | none => .ok []
    | some c =>
      if c.moles ≤ 0 then
        match db.phase c.name with
        | none => .ub
        | some e =>
          (missing db db.leastSS tot e).bind fun q =>
            (ssCheckFrom db tot comps fuel ((if q = [] then k else db.masters.length) + 1)).bind fun r =>
              .ok (q.flatMap (marksOf db) ++ r)
      else ssCheckFrom db tot comps fuel (k + 1)

/-- `ss_assemblage_check`, step.cpp:1441-1515. -/
def ssCheck (db : Db) (tot : Name → ℚ) : List (List SSComp) → Res (List Name)
  | [] => .ok []
  | c :: l => (ssCheckFrom db tot c (c.length + 1) 0).bind fun q => (ssCheck db tot l).bind fun r => .ok (q ++ r)

/-- `gas_phase_check`, step.cpp:1293-1356, which only warns: a gas without moles must be in the data base. -/
def gasCheck (db : Db) : Amounts → Res Unit
  | [] => .ok ()
  | x :: l =>
    if x.2 ≤ 0 then
      match db.phase x.1 with
      | none => .ub
      | some e => (missing db db.least (fun _ => 0) e).bind fun _ => gasCheck db l
    else gasCheck db l

/-- `solution_check`, step.cpp:1516-1566: `true` when the sums are accepted, `false` for `MASS_BALANCE`. -/
def solutionCheck (least : ℚ) : List Master → St → Bool × St
  | [], st => (true, st)
  | m :: l, st =>
    let none' : St := { st with tot := fun k => if k = m.name then 0 else st.tot k }
    if st.tot m.name ≤ least ∧ st.tot m.name ≥ -least then solutionCheck least l none'
    else if st.tot m.name ≥ 0 then solutionCheck least l st
    else if m.sp = .other then (false, st)
    else solutionCheck least l none'

/-- The totals `xsolution_save` stores, mainsubs.cpp:1328-1354. -/
def saved (db : Db) (tot : Name → ℚ) : Amounts :=
  (db.masters.filter fun m =>
    decide (m.typ = .aq) && decide (m.sp ≠ .hplus) && decide (m.sp ≠ .h2o) && decide (tot m.name > db.least)).map
      fun m => (m.name, tot m.name)

/-- Where the water comes from, step.cpp:54-80. -/
inductive Water where
  | mix (l : List (Int × ℚ))
  | one (s : Solution)
  | missing

/-- What takes part in a step (`cxxUse`), with the temperature and the pressure of the step. -/
structure Input where
  water : Water
  sols : Int → Option Solution
  reaction : Option Reaction
  fraction : ℚ
  kinetics : Option Amounts
  exchange : Option Exchange
  surface : Option Surface
  gas : Option Gas
  temperature : Option ℚ
  pressure : Option ℚ
  pp : Option PP
  ss : Option (List (List SSComp))

/-- The result of a step: the sums with solution -1, minerals and solid solutions as they are left and the marked species;
or `MASS_BALANCE`, with minerals and solid solutions as they are left. -/
inductive Done where
  | sum (st : St) (solution : Solution) (pp : Option PP) (ss : Option (List (List SSComp))) (marks : List Name)
  | massBalance (pp : Option PP) (ss : Option (List (List SSComp)))

/-- Something that may take part. -/
def opt {α : Type} (x : Option α) (f : α → St → Res St) (st : St) : Res St :=
  match x with
  | some a => f a st
  | none => .ok st

/-- The water, step.cpp:54-80. -/
def addWater (db : Db) (i : Input) (st : St) : Res St :=
  match i.water with
  | .mix l => addMix db i.sols l st
  | .one s => .ok (addSolution db s 1 1 st)
  | .missing => .stop

/-- All but minerals and solid solutions, step.cpp:46-139. -/
def gather (db : Db) (i : Input) (errors : Nat) : Res St :=
  (addWater db i (zero errors)).bind fun st =>
  (opt i.reaction (fun r => addReaction db r i.fraction) st).bind fun st =>
  (opt i.kinetics (addKinetics db) st).bind fun st =>
  (opt i.exchange (addExchange db) st).bind fun st =>
  (opt i.surface (addSurface db) st).bind fun st =>
  (opt i.gas (addGas db) st).bind fun st =>
  (opt i.temperature (fun t st => .ok (st.setInten .tc t)) st).bind fun st =>
  opt i.pressure (fun p st => .ok (st.setInten .patm p)) st

/-- Minerals, then solid solutions, step.cpp:147-160. -/
def addSolids (db : Db) (i : Input) (st : St) : Res (Option PP × Option (List (List SSComp)) × St) :=
  (match i.pp with
    | some p => (addPP db p st).bind fun r => Res.ok (some r.1, r.2)
    | none => Res.ok (none, st)).bind fun r =>
  (match i.ss with
    | some s => (addSS db s r.2).bind fun q => Res.ok (some q.1, q.2)
    | none => Res.ok (none, r.2)).bind fun q =>
  .ok (r.1, q.1, q.2)

/-- The checks for missing elements, step.cpp:165-178. -/
def checks (db : Db) (i : Input) (tot : Name → ℚ) (pp : Option PP) (ss : Option (List (List SSComp))) :
    Res (Option PP × List Name) :=
  (match i.gas with
    | some g => gasCheck db g.comps
    | none => Res.ok ()).bind fun _ =>
  (match pp with
    | some p => (ppCheck db tot p).bind fun r => Res.ok (some r.1, r.2)
    | none => Res.ok (none, [])).bind fun r =>
  (match ss with
    | some s => ssCheck db tot s
    | none => Res.ok []).bind fun q =>
  .ok (r.1, r.2 ++ q)

/-- `step`, step.cpp:28-225. The copies made at 150 and 158 are put back when an element is negative. -/
def step (db : Db) (i : Input) (errors : Nat) : Res Done :=
  (gather db i errors).bind fun st =>
  (addSolids db i st).bind fun r =>
  (checks db i r.2.2.tot r.1 r.2.1).bind fun q =>
  match solutionCheck db.least db.masters r.2.2 with
  | (false, _) => .ok (.massBalance i.pp i.ss)
  | (true, st) =>
    .ok (.sum st
      { totals := saved db st.tot, h := st.h, o := st.o, cb := st.cb, water := st.water, inten := st.inten }
      q.1 r.2.1 q.2)

/-- Elements and moles of the minerals of an assemblage, `cxxPPassemblageComp::totalize`, PPassemblageComp.cxx:319-339: nothing
for a mineral with an alternative formula, and no entries for one without moles (`add_extensive`, NameDouble.cxx:200-221). -/
def ppTotals (db : Db) : List PPComp → Amounts
  | [] => []
  | c :: l =>
    (match c.addFormula, db.phase c.name with
      | none, some e => if c.moles = 0 then [] else e.map fun y => (y.1, y.2 * c.moles)
      | _, _ => []) ++ ppTotals db l

/-- The same for the components of solid solutions, `cxxSS::totalize`, SS.cxx:423-444. -/
def ssTotals (db : Db) : List SSComp → Amounts
  | [] => []
  | c :: l =>
    (match db.phase c.name with
      | some e => if c.moles = 0 then [] else e.map fun y => (y.1, y.2 * c.moles)
      | none => []) ++ ssTotals db l

/-- The totals of the system for the limits, `cxxSystem::totalize`, System.cxx:60-103, called at step.cpp:233-247. -/
def systemTotals (db : Db) (s : Solution) (pp : Option PP) (ss : Option (List (List SSComp))) : Amounts :=
  ("O", s.o) :: ("H", s.h) :: ("Charge", s.cb) :: s.totals
    ++ (match pp with | some p => ppTotals db p.comps | none => [])
    ++ (match ss with | some l => ssTotals db l.flatten | none => [])

/-- Look a name up in the sums: `none` when it does not occur. -/
def lookSum (l : Amounts) (n : Name) : Option ℚ :=
  if l.any (fun x => x.1 == n) then some ((l.filter fun x => x.1 == n).map Prod.snd).sum else none

/-- The largest amount of a phase that could form, `delta_max`, step.cpp:258-269 and 286-300. `ub` for an element without
primary master species, `nan` for a coefficient of zero. -/
def deltaMax (db : Db) (sys : Amounts) : Amounts → ℚ → Res ℚ
  | [], least => .ok least
  | x :: l, least =>
    match db.prim x.1 with
    | none => .ub
    | some m =>
      match lookSum sys m.name with
      | none => deltaMax db sys l least
      | some t =>
        if x.2 = 0 then .nan
        else deltaMax db sys l (if t / x.2 < least then t / x.2 else least)

/-- The limit of a component of a solid solution. -/
def ssLimit (db : Db) (sys : Amounts) (c : SSComp) : Res ℚ :=
  match db.phase c.name with
  | none => .ub
  | some e => deltaMax db sys e 10000000000

end Verif.Assemble
