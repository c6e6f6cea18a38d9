import Verif.Assemble.Model
import Mathlib.Algebra.BigOperators.Group.List.Basic

/-!
# What a reaction calculation should start from

An account is an element, or hydrogen, or oxygen. These definitions say what belongs to an account and how much each
part of a cell holds; they follow the parts of the cell and not the order of the code.
-/

namespace Verif.Assemble.Spec

open Verif.Assemble

/-- What is balanced. -/
inductive Acct where
  | elt (e : Name)
  | h
  | o
  deriving DecidableEq

/-- `e` is an element of the data base other than hydrogen and oxygen. -/
def Element (db : Db) (e : Name) : Prop :=
  ∃ m ∈ db.masters, m.name = e ∧ db.exact e = some m ∧ m.sp ≠ .hplus ∧ m.sp ≠ .h2o

/-- An account that is kept: hydrogen, oxygen, or an element of the data base. -/
def Kept (db : Db) : Acct → Prop
  | .elt e => Element db e
  | .h => True
  | .o => True

/-- Whether a name in a list belongs to an account: "Fe(2)" to "Fe". -/
def belongs (db : Db) : Acct → Name → Bool
  | .elt e, n => db.first n == e
  | .h, n => (db.prim n).any fun m => m.sp == .hplus
  | .o, n => (db.prim n).any fun m => m.sp == .h2o

/-- Moles of an account in a list. -/
def amount (db : Db) (a : Acct) (l : Amounts) : ℚ := (l.map fun x => if belongs db a x.1 then x.2 else 0).sum

/-- Moles of an account in a solution. -/
def inSolution (db : Db) (s : Solution) : Acct → ℚ
  | .elt e => amount db (.elt e) s.totals
  | .h => s.h
  | .o => s.o

/-- The solutions that take part, each with its fraction. -/
def parts (i : Input) : List (ℚ × Solution) :=
  match i.water with
  | .mix l => l.filterMap fun x => (i.sols x.1).map fun s => (x.2, s)
  | .one s => [(1, s)]
  | .missing => []

/-- Elements of something that reacts, by the name of a phase or by a formula. -/
def composition (db : Db) (n : Name) : Amounts :=
  match db.phase n with
  | some e => e
  | none => db.formula n

/-- Moles in the unit of a reaction. -/
def unit (c : Char) : ℚ :=
  match c with
  | 'm' => 1 / 10 ^ 3
  | 'u' => 1 / 10 ^ 6
  | 'n' => 1 / 10 ^ 9
  | _ => 1

/-- Moles of an account in a reaction. -/
def inReaction (db : Db) (a : Acct) (f : ℚ) (r : Reaction) : ℚ :=
  (r.reactants.map fun x => amount db a (composition db x.1) * x.2).sum * (r.size * unit r.units * f)

/-- Moles of an account on a surface, with the diffuse layer when there is one that has been calculated. -/
def inSurface (db : Db) (a : Acct) (x : Surface) : ℚ :=
  (x.comps.map fun c => amount db a c.totals).sum +
    if x.type = .edl ∧ x.layer = true ∧ x.newDef = false then (x.charges.map fun c => amount db a c.diffuse).sum else 0

/-- Moles of an account in a gas phase. -/
def inGas (db : Db) (a : Acct) (g : Gas) : ℚ :=
  (g.comps.map fun x => match db.phase x.1 with | some e => amount db a e * x.2 | none => 0).sum

/-- Something for a part that may be absent. -/
def ofOpt {α : Type} (f : α → ℚ) : Option α → ℚ
  | some x => f x
  | none => 0

/-- Moles of an account that all parts but minerals and solid solutions bring. -/
def brought (db : Db) (i : Input) (a : Acct) : ℚ :=
  ((parts i).map fun p => inSolution db p.2 a * p.1).sum
    + ofOpt (inReaction db a i.fraction) i.reaction
    + ofOpt (amount db a) i.kinetics
    + ofOpt (fun x => (x.comps.map fun c => amount db a c.totals).sum) i.exchange
    + ofOpt (inSurface db a) i.surface
    + ofOpt (inGas db a) i.gas

/-- The charge of a surface: at its sites when there is no double layer, otherwise at its planes. -/
def surfaceCharge (x : Surface) : ℚ :=
  match x.type with
  | .unknown => 0
  | .noEdl => (x.comps.map fun c => c.charge).sum
  | .edl => (x.charges.map fun c => c.charge).sum

/-- The charge that all parts bring; of an exchanger when it has been calculated. -/
def charge (i : Input) : ℚ :=
  ((parts i).map fun p => p.2.cb * p.1).sum
    + ofOpt (fun x => if x.newDef then 0 else (x.comps.map fun c => c.charge).sum) i.exchange
    + ofOpt surfaceCharge i.surface

/-- The water the solutions bring. -/
def water (i : Input) : ℚ := ((parts i).map fun p => p.2.water * p.1).sum

/-- Moles of an account in a mineral, in what it reacts to. -/
def inMineral (db : Db) (a : Acct) (c : PPComp) : ℚ :=
  match ppElts db c with
  | some e => amount db a e * c.moles
  | none => 0

/-- Moles of an account in a component of a solid solution. -/
def inSSComp (db : Db) (a : Acct) (c : SSComp) : ℚ :=
  match db.phase c.name with
  | some e => amount db a e * c.moles
  | none => 0

/-- Moles of an account in minerals and solid solutions. -/
def held (db : Db) (a : Acct) (pp : Option PP) (ss : Option (List (List SSComp))) : ℚ :=
  ofOpt (fun p => (p.comps.map (inMineral db a)).sum) pp
    + ofOpt (fun l => (l.flatten.map (inSSComp db a)).sum) ss

/-- Minerals and components that may dissolve. -/
def reserve (db : Db) (a : Acct) (pp : Option PP) (ss : Option (List (List SSComp))) : ℚ :=
  ofOpt (fun p => ((p.comps.filter fun c => !c.precipitateOnly && decide (c.moles > 0)).map (inMineral db a)).sum) pp
    + ofOpt (fun l => ((l.flatten.filter fun c => decide (c.moles > 0)).map (inSSComp db a)).sum) ss

/-- The names of diffuse layers are elements without redox state. -/
def Plain (db : Db) (i : Input) : Prop :=
  ∀ x, i.surface = some x → ∀ c ∈ x.charges, ∀ y ∈ c.diffuse, db.first y.1 = y.1

/-- No mineral or component contains a negative number of atoms of an element. -/
def Proper (db : Db) (i : Input) : Prop :=
  (∀ p, i.pp = some p → ∀ c ∈ p.comps, ∀ e, ppElts db c = some e → ∀ x ∈ e, 0 ≤ x.2) ∧
  (∀ s, i.ss = some s → ∀ l ∈ s, ∀ c ∈ l, ∀ e, db.phase c.name = some e → ∀ x ∈ e, 0 ≤ x.2)

/-- The list of elements of an assemblage names the elements of all its minerals. -/
def Listed (db : Db) (i : Input) : Prop :=
  ∀ p, i.pp = some p → ∀ c ∈ p.comps, ∀ e, ppElts db c = some e → ∀ x ∈ e, ∃ n ∈ p.elts, db.first n = db.first x.1

end Verif.Assemble.Spec

namespace Verif.Assemble.Spec

open Verif.Assemble

/-- An element that is neither hydrogen, oxygen nor the electron. -/
def Ordinary (db : Db) (e : Name) : Prop := ∃ m, db.exact e = some m ∧ m.sp = .other

/-- An ordinary element that is dissolved, not a site of an exchanger or a surface. -/
def Dissolved (db : Db) (e : Name) : Prop := ∃ m, db.exact e = some m ∧ m.sp = .other ∧ m.typ = .aq

/-- The data base has one master species for each name, and the limits for traces are not negative. -/
structure Sound (db : Db) : Prop where
  names : (db.masters.map Master.name).Nodup
  least : 0 ≤ db.least
  leastSS : 0 ≤ db.leastSS

/-- The moles a stored solution lists for an element; an element that is not listed has none. -/
def listed (s : Solution) (e : Name) : ℚ := ((s.totals.filter fun x => x.1 == e).map Prod.snd).sum

/-- The average of a property over solutions, weighted with the water each brings; only solutions with a positive fraction
count. -/
def average (l : List (ℚ × Solution)) (j : Inten) : ℚ :=
  ((l.filter fun p => decide (p.1 > 0)).map fun p => p.2.inten j * (p.1 * p.2.water)).sum
    / ((l.filter fun p => decide (p.1 > 0)).map fun p => p.1 * p.2.water).sum

/-- A mineral before and after. -/
structure Same (c c' : PPComp) : Prop where
  name : c'.name = c.name
  formula : c'.addFormula = c.addFormula
  only : c'.precipitateOnly = c.precipitateOnly

/-- `y` moles of something with composition `l` can form from what a system has. -/
def Possible (db : Db) (sys : Name → ℚ) (l : Amounts) (y : ℚ) : Prop := ∀ x ∈ l, x.2 * y ≤ sys (db.first x.1)

end Verif.Assemble.Spec

namespace Verif.Assemble.Spec

open Verif.Assemble

/-- Species that stand for an element or one of its redox states. -/
def SpeciesOf (db : Db) (e s : Name) : Prop := ∃ m ∈ db.masters, db.first m.name = e ∧ Element db e ∧ m.species = s

/-- `s` is a species of an element that is needed for composition `l` and is not there. -/
def Lacks (db : Db) (tot : Name → ℚ) (limit : ℚ) (l : Amounts) (s : Name) : Prop :=
  ∃ x ∈ l, ∃ e, Element db e ∧ db.first x.1 = e ∧ tot e ≤ limit ∧ SpeciesOf db e s

/-- Moles of an element that a list of totals gives, under its own name. -/
def has (sys : Amounts) (e : Name) : ℚ := ((sys.filter fun x => x.1 == e).map Prod.snd).sum

end Verif.Assemble.Spec

namespace Verif.Assemble.Spec

open Verif.Assemble

/-- Moles of an element under its own name in minerals that react to their own formula and in components. -/
def inSolids (db : Db) (e : Name) (pp : Option PP) (ss : Option (List (List SSComp))) : ℚ :=
  ofOpt (fun p => (p.comps.map fun c => match c.addFormula with
      | some _ => 0
      | none => has ((db.phase c.name).getD []) e * c.moles).sum) pp
    + ofOpt (fun l => (l.flatten.map fun c => has ((db.phase c.name).getD []) e * c.moles).sum) ss

end Verif.Assemble.Spec
