import Mathlib.Data.Rat.Defs
import Mathlib.Algebra.Order.Ring.Rat

/-!
# Using the equations of the cell before

`prep` (`/repo/src/IPhreeqcPhast/IPhreeqc/phreeqcpp/prep.cpp:23-132`) sets up the unknowns of a calculation. When
`check_same_model` finds that the cell calculated before had the same elements, gases, solid solutions and minerals, the
unknowns and equations of that cell are kept and `quick_setup` only puts in the new amounts. All file names below are in
that directory.

Simplifications. Doubles are rational numbers. Cells have no surface. Phases are named as in the data base
(`phase_bsearch` ignores the case of letters). A master species is one of an element or of an exchange site; redox
states never carry a total here (`step` adds to primary master species), and the unknown of an element is the one of its
primary master species. `H`, `O` and the electron have the role `skip`: `check_same_model` and `quick_setup` pass over
them (prep.cpp:150-154, 5731; totals of `E`, `H(0)` and `O(0)` are never positive). The unknowns for ionic strength and
activity of water, whose amounts are never used, are left out, as are `ln_moles`, which is never read, the corrections for
real gases (`adjust_setup_pure_phases`) and what a set-up writes back into the components (`initial_moles`, `delta`).
A calculation state of at least `REACTION` is assumed (prep.cpp:39; `TRANSPORT` is not modelled).
-/

namespace Verif.Reuse

abbrev Name := String

/-- Outcome: a value; an input error that stops the calculation; undefined behaviour. -/
inductive Res (α : Type) where
  | ok (a : α)
  | stop
  | ub
  deriving Repr, DecidableEq

/-- Go on with a value. -/
def Res.bind {α β : Type} (r : Res α) (f : α → Res β) : Res β :=
  match r with
  | .ok a => f a
  | .stop => .stop
  | .ub => .ub

/-- What a master species stands for: a dissolved element, an exchange site, or one of those passed over. -/
inductive Role where
  | aq | ex | skip
  deriving Repr, DecidableEq

/-- `class master`: the element and its role. -/
structure Master where
  name : Name
  role : Role
  deriving Repr, DecidableEq

/-- The master species, in the order of their names, `MIN_TOTAL` and `MIN_TOTAL_SS`. -/
structure Db where
  masters : List Master
  least : ℚ
  leastSS : ℚ

/-- The master species of an element name. -/
def Db.find (db : Db) (n : Name) : Option Master := db.masters.find? fun m => m.name = n

/-- `cxxPPassemblageComp`: the mineral, its alternative formula (empty when none) and its numbers. -/
structure PPComp where
  name : Name
  addFormula : Name
  moles : ℚ
  si : ℚ
  delta : ℚ
  dissolveOnly : Bool
  deriving Repr, DecidableEq

/-- `cxxSScomp`: a component of a solid solution. -/
structure SSComp where
  name : Name
  moles : ℚ
  deriving Repr, DecidableEq

/-- `cxxSS`: a solid solution. -/
structure SS where
  name : Name
  comps : List SSComp
  deriving Repr, DecidableEq

/-- `cxxGasPhase::GP_TYPE`: fixed pressure or fixed volume. -/
inductive GasType where
  | pressure | volume
  deriving Repr, DecidableEq

/-- `cxxGasPhase`: its type, whether it holds a real gas (`pr_in`), its components with their moles. -/
structure Gas where
  type : GasType
  pr : Bool
  comps : List (Name × ℚ)
  deriving Repr, DecidableEq

/-- The totals of the components of an exchanger: sites and the elements on them. -/
abbrev Exchange := List (List (Name × ℚ))

/-- What `step` hands to `prep`: the totals of the master species, charge, hydrogen and oxygen of solution -1, the
exchanger as it was before the step, minerals and solid solutions in the order of their names, gas. -/
structure Cell where
  tot : Name → ℚ
  cb : ℚ
  h : ℚ
  o : ℚ
  exch : Option Exchange
  pp : Option (List PPComp)
  gas : Option Gas
  ss : Option (List SS)

/-- `numerical_fixed_volume` and `force_numerical_fixed_volume` (KNOBS, read.cpp:7963, 7966). -/
structure Knobs where
  numerical : Bool
  force : Bool
  deriving Repr, DecidableEq

/-- `class unknown`: mass balance of an element; charge balance; hydrogen; oxygen; exchange site; mineral; all of a gas;
one component of a gas; component of a solid solution. `phase` is the phase the equations are written for; of a
solid-solution unknown, `owner` and `comp` are the solid solution and the component `ss_ptr` and `ss_comp_ptr` point to. -/
inductive Unk where
  | mb (n : Name) (moles : ℚ)
  | cb (moles : ℚ)
  | mh (moles : ℚ)
  | mh2o (moles : ℚ)
  | exch (n : Name) (moles : ℚ)
  | pp (phase : Name) (moles si delta : ℚ) (dissolveOnly : Bool)
  | gas (moles : ℚ)
  | gasEach (phase : Name) (moles : ℚ)
  | ss (phase owner comp : Name) (moles : ℚ)
  deriving Repr, DecidableEq

/-! ## The exchanger of the step -/

/-- Put `v` as the total of `n` into the first component that has it, mainsubs.cpp:1768-1786. -/
def putFirst (n : Name) (v : ℚ) : Exchange → Exchange
  | [] => []
  | c :: l =>
    if c.any fun x => x.1 = n then (c.map fun x => if x.1 = n then (x.1, v) else x) :: l else c :: putFirst n v l

/-- The total a site is stored with, mainsubs.cpp:1774-1782. -/
def siteTotal (least t : ℚ) : ℚ := if t ≤ least then least else t

/-- `step_save_exch`, mainsubs.cpp:1737-1791. -/
def saveExch (db : Db) (tot : Name → ℚ) (e : Exchange) : Exchange :=
  (db.masters.filter fun m => m.role = .ex).foldl (fun l m => putFirst m.name (siteTotal db.least (tot m.name)) l)
    (e.map fun c => c.map fun x => (x.1, 0))

/-! ## Setting up from scratch -/

/-- The mass balances of `setup_solution`, prep.cpp:4179-4354, for the totals `xsolution_save` stored,
mainsubs.cpp:1328-1354. -/
def setupSolution (db : Db) (c : Cell) : List Unk :=
  (db.masters.filter fun m => m.role = .aq ∧ c.tot m.name > db.least).map fun m => .mb m.name (c.tot m.name)

/-- The unknowns of any reaction calculation, prep.cpp:4433-4475. -/
def setupBase (c : Cell) : List Unk := [.cb c.cb, .mh (c.h - 2 * c.o), .mh2o c.o]

/-- Whether there is an unknown for the exchange site: `master->in`. -/
def hasSite (n : Name) (l : List Unk) : Bool := l.any fun u => match u with | .exch k _ => k = n | _ => false

/-- Add to the amount of an exchange site. -/
def Unk.addTo (n : Name) (d : ℚ) : Unk → Unk
  | .exch k v => .exch k (if k = n then v + d else v)
  | u => u

/-- One entry of the totals of a component, prep.cpp:3159-3204. -/
def addSite (db : Db) (l : List Unk) (x : Name × ℚ) : Res (List Unk) :=
  match db.find x.1 with
  | none => .stop
  | some m =>
    if m.role ≠ .ex then .ok l
    else if hasSite x.1 l then .ok (l.map (Unk.addTo x.1 x.2))
    else .ok (l ++ [.exch x.1 x.2])

/-- The entries of all components, prep.cpp:3143-3205. -/
def addSites (db : Db) : List (Name × ℚ) → List Unk → Res (List Unk)
  | [], l => .ok l
  | x :: r, l => (addSite db l x).bind (addSites db r)

/-- `setup_exchange`, prep.cpp:3131-3207, with the exchanger of the step. -/
def setupExchange (db : Db) (c : Cell) : Res (List Unk) :=
  match c.exch with
  | none => .ok []
  | some e => addSites db (saveExch db c.tot e).flatten []

/-- `setup_pure_phases`, prep.cpp:4054-4095. -/
def setupPP (c : Cell) : List Unk :=
  match c.pp with
  | none => []
  | some l => l.map fun p => .pp p.name p.moles p.si p.delta p.dissolveOnly

/-- Whether each component of the gas gets an unknown, prep.cpp:3220-3221, 227-229. -/
def Knobs.each (k : Knobs) (g : Gas) : Bool := decide (g.type = .volume) && (g.pr || k.force) && k.numerical

/-- An amount that is not positive is replaced. -/
def atLeast (least v : ℚ) : ℚ := if v ≤ 0 then least else v

/-- `setup_gas_phase`, prep.cpp:3209-3243, and `setup_fixed_volume_gas`, gases.cpp:13-55. -/
def setupGas (db : Db) (k : Knobs) (c : Cell) : List Unk :=
  match c.gas with
  | none => []
  | some g =>
    if k.each g then g.comps.map fun x => .gasEach x.1 (atLeast db.least x.2)
    else [.gas (atLeast db.least (g.comps.map (·.2)).sum)]

/-- The components of all solid solutions with the names of their solid solutions. -/
def members (l : List SS) : List (Name × SSComp) := l.flatMap fun s => s.comps.map fun x => (s.name, x)

/-- `setup_ss_assemblage`, prep.cpp:3247-3297. -/
def setupSS (db : Db) (c : Cell) : List Unk :=
  match c.ss with
  | none => []
  | some l => (members l).map fun x => .ss x.2.name x.1 x.2.name (atLeast db.leastSS x.2.moles)

/-- The unknowns of a model built anew, prep.cpp:67-85. -/
def build (db : Db) (k : Knobs) (c : Cell) : Res (List Unk) :=
  (setupExchange db c).bind fun e =>
    .ok (setupSolution db c ++ (setupBase c ++ (e ++ (setupPP c ++ (setupGas db k c ++ setupSS db c)))))

/-! ## Keeping the unknowns -/

/-- Whether the unknown is the one of the master species. -/
def Master.of (m : Master) : Unk → Bool
  | .mb n _ => m.role = .aq ∧ n = m.name
  | .exch n _ => m.role = .ex ∧ n = m.name
  | _ => false

/-- Change the amount of an unknown. -/
def Unk.put (v : ℚ) : Unk → Unk
  | .mb n _ => .mb n v
  | .exch n _ => .exch n v
  | u => u

/-- The totals of the master species, prep.cpp:146-166; the unknown of the master species must exist. -/
def quickTotals (tot : Name → ℚ) : List Master → List Unk → Res (List Unk)
  | [], xs => .ok xs
  | m :: l, xs =>
    if m.role = .skip then quickTotals tot l xs
    else if tot m.name > 0 then
      if xs.any m.of then quickTotals tot l (xs.map fun u => if m.of u then u.put (tot m.name) else u) else .ub
    else quickTotals tot l xs

/-- Charge, hydrogen and oxygen, prep.cpp:170-192. -/
def quickBase (c : Cell) : Unk → Unk
  | .cb _ => .cb c.cb
  | .mh _ => .mh (c.h - 2 * c.o)
  | .mh2o _ => .mh2o c.o
  | u => u

/-- Minerals, prep.cpp:197-217; the mineral must be in the assemblage (`assert`, null pointer). -/
def quickPP (c : Cell) : List Unk → Res (List Unk)
  | [] => .ok []
  | .pp n _ _ _ _ :: l =>
    match c.pp with
    | none => .ub
    | some ps =>
      match ps.find? fun p => p.name = n with
      | none => .ub
      | some p => (quickPP c l).bind fun l' => .ok (.pp n p.moles p.si p.delta p.dissolveOnly :: l')
  | u :: l => (quickPP c l).bind fun l' => .ok (u :: l')

/-- Whether the unknown belongs to a gas. -/
def Unk.isGas : Unk → Bool
  | .gas _ => true
  | .gasEach _ _ => true
  | _ => false

/-- One unknown for each component, prep.cpp:231-240: the components go to `gas_unknowns` in order; there must be enough
of them. (`gas_unknowns` is not emptied by a model without such unknowns, gases.cpp:27; its pointers are then invalid.) -/
def fillGas (least : ℚ) : List (Name × ℚ) → List Unk → Res (List Unk)
  | [], xs => .ok xs
  | _ :: _, [] => .ub
  | y :: l, .gasEach n _ :: xs => (fillGas least l xs).bind fun xs' => .ok (.gasEach n (atLeast least y.2) :: xs')
  | y :: l, u :: xs => (fillGas least (y :: l) xs).bind fun xs' => .ok (u :: xs')

/-- One unknown for the whole gas, prep.cpp:244-252: `gas_unknown`, the first of them (gases.cpp:49-52). -/
def fillTotal (v : ℚ) : List Unk → List Unk
  | [] => []
  | .gas _ :: xs => .gas v :: xs
  | .gasEach n _ :: xs => .gasEach n v :: xs
  | u :: xs => u :: fillTotal v xs

/-- Gas, prep.cpp:224-254; a gas unknown is kept while there is no gas: null pointer. -/
def quickGas (db : Db) (k : Knobs) (c : Cell) (xs : List Unk) : Res (List Unk) :=
  if xs.any Unk.isGas then
    match c.gas with
    | none => .ub
    | some g =>
      if k.each g then fillGas db.least g.comps xs
      else .ok (fillTotal (atLeast db.least (g.comps.map (·.2)).sum) xs)
  else .ok xs

/-- Solid solutions from the first of their unknowns, prep.cpp:267-291; there must be an unknown with a phase for each
component (after the last one, `x[i]->phase` is null). -/
def fillSS (least : ℚ) : List (Name × SSComp) → List Unk → Res (List Unk)
  | [], xs => .ok xs
  | y :: l, .ss p _ _ _ :: xs =>
    (fillSS least l xs).bind fun xs' => .ok (.ss p y.1 y.2.name (atLeast least y.2.moles) :: xs')
  | _ :: _, _ => .ub

/-- Solid solutions, prep.cpp:259-292. -/
def quickSS (db : Db) (c : Cell) : List Unk → Res (List Unk)
  | [] => .ok []
  | .ss p o q v :: xs =>
    match c.ss with
    | none => .ub
    | some l => fillSS db.leastSS (members l) (.ss p o q v :: xs)
  | u :: xs => (quickSS db c xs).bind fun xs' => .ok (u :: xs')

/-- `quick_setup`, prep.cpp:135-354. -/
def quick (db : Db) (k : Knobs) (c : Cell) (xs : List Unk) : Res (List Unk) :=
  (quickTotals c.tot db.masters xs).bind fun xs =>
    (quickPP c (xs.map (quickBase c))).bind fun xs => (quickGas db k c xs).bind fun xs => quickSS db c xs

/-! ## Which model is the same -/

/-- `class last_model` and the marks of the master species. -/
structure Last where
  marks : Name → Bool
  gasType : Option GasType
  gas : List Name
  numerical : Bool
  ss : List Name
  pp : List (Name × Name)

/-- `save_model`, prep.cpp:5575-5704. -/
def saveModel (k : Knobs) (c : Cell) : Last where
  marks n := decide (c.tot n > 0)
  gasType := c.gas.map (·.type)
  gas := match c.gas with | none => [] | some g => g.comps.map (·.1)
  numerical := k.numerical
  ss := match c.ss with | none => [] | some l => l.map (·.name)
  pp := match c.pp with | none => [] | some l => l.map fun p => (p.name, p.addFormula)

/-- The master species, prep.cpp:5725-5749. -/
def sameMasters (db : Db) (last : Last) (c : Cell) (xs : List Unk) : Bool :=
  db.masters.all fun m =>
    decide (m.role = .skip) ||
    (decide (c.tot m.name > db.least) && last.marks m.name && xs.any m.of) ||
    (decide (c.tot m.name ≤ db.least) && !last.marks m.name)

/-- Gas, prep.cpp:5753-5778. -/
def sameGas (k : Knobs) (last : Last) (c : Cell) : Bool :=
  match c.gas with
  | none => last.gas.isEmpty
  | some g =>
    decide (last.gas.length = g.comps.length) && decide (last.numerical = k.numerical) &&
      decide (last.gasType = some g.type) && decide (last.gas = g.comps.map (·.1))

/-- Solid solutions, prep.cpp:5782-5799: their names. -/
def sameSS (last : Last) (c : Cell) : Bool :=
  match c.ss with
  | none => last.ss.isEmpty
  | some l => decide (last.ss = l.map (·.name))

/-- Minerals, prep.cpp:5803-5839: phases and alternative formulas. -/
def samePP (last : Last) (c : Cell) : Bool :=
  match c.pp with
  | none => last.pp.isEmpty
  | some l => decide (last.pp = l.map fun p => (p.name, p.addFormula))

/-- What a worker keeps from one calculation to the next: whether the next model must be built
(`last_model.force_prep`), the unknowns, the description of the model. -/
structure Worker where
  force : Bool
  xs : List Unk
  last : Last

/-- `check_same_model`, prep.cpp:5707-5905. -/
def Worker.same (w : Worker) (db : Db) (k : Knobs) (c : Cell) : Bool :=
  !w.force && sameMasters db w.last c w.xs && sameGas k w.last c && sameSS w.last c && samePP w.last c

/-- `prep`, prep.cpp:23-132; both ways end in `save_model` (prep.cpp:352, 1331). -/
def prep (db : Db) (k : Knobs) (c : Cell) (w : Worker) : Res Worker :=
  (if w.same db k c then quick db k c w.xs else build db k c).bind fun xs => .ok ⟨false, xs, saveModel k c⟩

end Verif.Reuse
