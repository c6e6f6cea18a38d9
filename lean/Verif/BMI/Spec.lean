import Verif.BMI.Model

/-!
# What is asked of the BMI layer

The vocabulary of the statements: the value a variable has in the module (`current`), what is
assumed of the module (`Lawful`), the calls a user can make (`Op`), the states they lead to
(`Reach`), and the clock they are meant to drive (`Clock`).
-/

namespace Verif.BMI

variable {σ : Type}

/-- The value of a variable according to the module's own getters. -/
def current (m : Mod σ) (st : σ) (v : Var) : Value :=
  match v.ctype with
  | .int => .int (m.int st v)
  | .bool => .bool (m.on st)
  | .string => .chars (m.str st v)
  | .strings => .strs (m.strs st v)
  | .double => if v.scalar then .num (m.num st v) else .vec (m.vec st v)

/-- The list of components, and what depends on it and the grid only, is the same. -/
structure Keeps (m : Mod σ) (st st' : σ) : Prop where
  ncomp : m.ncomp st' = m.ncomp st
  count : m.int st' .ComponentCount = m.int st .ComponentCount
  grid  : m.int st' .GridCellCount = m.int st .GridCellCount
  gfw   : m.vec st' .Gfw = m.vec st .Gfw

/-- What the layer may assume of the module: its vectors have the documented sizes (every cell has a
solution), and its setters do not touch the list of components. -/
structure Lawful (m : Mod σ) : Prop where
  len    : ∀ st v, v.isVec = true → (m.vec st v).length = m.size st v
  setVec : ∀ st v l, Keeps m st (m.setVec st v l)
  setNum : ∀ st v x, Keeps m st (m.setNum st v x)
  setInt : ∀ st v i, Keeps m st (m.setInt st v i)
  setOn  : ∀ st b, Keeps m st (m.setOn st b)
  setStr : ∀ st v x, Keeps m st (m.setStr st v x)

/-- The calls of a user: readers and writers of the BMI by overload, pointers, time stepping, the
module's own setters (`rmSet v f`: the one announcing `v`), any other call of the module (`other`),
`FindComponents`, and the queries of names and counts. -/
inductive Op (σ : Type)
  | getRaw (v : Var) | getVec (v : Var) | getNum (v : Var) | getInt (v : Var) | getBool (v : Var)
  | getStr (v : Var) | getStrs (v : Var) | getPtr (v : Var)
  | setRaw (v : Var) (x : Value) | setVec (v : Var) (l : List ℚ) | setNum (v : Var) (x : ℚ)
  | setInt (v : Var) (i : Int) | setBool (v : Var) (b : Bool) | setStr (v : Var) (x : List Char)
  | update (run : Run σ) | updateUntil (run : Run σ) (t : ℚ)
  | rmSet (v : Var) (f : σ → σ) | other (f : σ → σ)
  | findComponents (f : σ → σ) (auto : List (List Char × Auto))
  | inputNames | outputNames | pointableNames

/-- Forget the value. -/
def R.drop {α : Type} (r : R σ α) : R σ Unit := r.bind fun s _ => .ok s ()

/-- One call. -/
def exec (m : Mod σ) : Op σ → S σ → R σ Unit
  | .getRaw v, s => (getValueRaw m v s).drop
  | .getVec v, s => (getValueVec m v s).drop
  | .getNum v, s => (getValueNum m v s).drop
  | .getInt v, s => (getValueInt m v s).drop
  | .getBool v, s => (getValueBool m v s).drop
  | .getStr v, s => (getValueStr m v s).drop
  | .getStrs v, s => (getValueStrs m v s).drop
  | .getPtr v, s => (getValuePtr m v s).drop
  | .setRaw v x, s => setValueRaw m v x s
  | .setVec v l, s => setValueVec m v l s
  | .setNum v x, s => setValueNum m v x s
  | .setInt v i, s => setValueInt m v i s
  | .setBool v b, s => setValueBool m v b s
  | .setStr v x, s => setValueStr m v x s
  | .update run, s => update m run s
  | .updateUntil run t, s => updateUntil m run t s
  | .rmSet v f, s => rmSet m v (f s.st) s
  | .other f, s => .ok { s with st := f s.st } ()
  | .findComponents f auto, s => findComponents m f auto s
  | .inputNames, s => (getInputVarNames m s).drop
  | .outputNames, s => (getOutputVarNames m s).drop
  | .pointableNames, s => (getPointableVarNames m s).drop

/-- Only `FindComponents` changes the list of components. -/
def Op.Mild (m : Mod σ) : Op σ → Prop
  | .update run => ∀ st, Keeps m st (run.f st)
  | .updateUntil run _ => ∀ st, Keeps m st (run.f st)
  | .rmSet _ f => ∀ st, Keeps m st (f st)
  | .other f => ∀ st, Keeps m st (f st)
  | _ => True

/-- `FindComponents` finds no new components once a pointer to a variable sized by them has been
given out. -/
def Op.NoGrowth (m : Mod σ) (s : S σ) : Op σ → Prop
  | .findComponents f _ => m.ncomp (f s.st) ≤ m.ncomp s.st ∨
      ((s.va .Concentrations).void = none ∧ (s.va .Gfw).void = none)
  | _ => True

/-- The call comes back, or throws, in the state `s'`. -/
def Leads (m : Mod σ) (s : S σ) (op : Op σ) (s' : S σ) : Prop :=
  exec m op s = .ok s' () ∨ exec m op s = .threw s'

/-- States after any calls, returning or throwing, that respect `Op.Mild` and `Op.NoGrowth`. -/
inductive Reach (m : Mod σ) : S σ → Prop
  | start (st : σ) : Reach m (start st)
  | step {s s' : S σ} (op : Op σ) : Reach m s → op.Mild m → op.NoGrowth m s → Leads m s op s' →
      Reach m s'

/-- The user passes the C++ type of the variable. -/
def Op.Typed : Op σ → Prop
  | .setVec v _ => v.isVec = true
  | .setNum v _ => v.scalar = true
  | .setInt v _ => v.ctype = .int
  | .setBool v _ => v.ctype = .bool
  | .setStr v _ => v.ctype = .string
  | .setRaw v x => match v.ctype, x with
    | .int, .int _ => True
    | .bool, .bool _ => True
    | .double, .vec _ => True
    | .string, .chars _ => True
    | _, _ => False
  | _ => True

/-- Time and time step. -/
structure Clock where
  t  : ℚ
  dt : ℚ
  deriving DecidableEq, Repr

/-- The clock of the module. -/
def clock (m : Mod σ) (s : S σ) : Clock := ⟨m.num s.st .Time, m.num s.st .TimeStep⟩

/-- Nothing but the calls meant for it changes the time: the setters for other variables do not, the
setters for the two times store their argument. -/
structure Timed (m : Mod σ) : Prop where
  vec  : ∀ st v l w, m.num (m.setVec st v l) w = m.num st w
  int  : ∀ st v i w, m.num (m.setInt st v i) w = m.num st w
  on   : ∀ st b w, m.num (m.setOn st b) w = m.num st w
  str  : ∀ st v x w, m.num (m.setStr st v x) w = m.num st w
  same : ∀ st v x, v.scalar = true → m.num (m.setNum st v x) v = x
  else' : ∀ st v x w, w ≠ v → m.num (m.setNum st v x) w = m.num st w

end Verif.BMI
