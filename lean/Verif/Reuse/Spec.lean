import Verif.Reuse.Model

/-!
# What is asked of kept equations
-/

namespace Verif.Reuse.Spec

/-- A sound data base: every element once, positive least amount. -/
structure Sound (db : Db) : Prop where
  names : (db.masters.map (·.name)).Nodup
  least : 0 < db.least

/-- The exchange sites of a cell. -/
def sites (db : Db) (c : Cell) : List Name :=
  match c.exch with
  | none => []
  | some e => (e.flatten.map (·.1)).filter fun n => (⟨n, .ex⟩ : Master) ∈ db.masters

/-- A cell as `step` leaves it: every total is zero or more than the least amount; a site has a total exactly when the
exchanger has the site; elements of the exchanger are known and listed once in a component; minerals are listed once. -/
structure Ready (db : Db) (c : Cell) : Prop where
  totals : ∀ m ∈ db.masters, m.role ≠ .skip → c.tot m.name = 0 ∨ db.least < c.tot m.name
  sites : ∀ m ∈ db.masters, m.role = .ex → (db.least < c.tot m.name ↔ m.name ∈ sites db c)
  known : ∀ e, c.exch = some e → ∀ x ∈ e, (x.map (·.1)).Nodup ∧ ∀ y ∈ x, ∃ m ∈ db.masters, m.name = y.1
  minerals : ∀ l, c.pp = some l → (l.map (·.name)).Nodup

/-- The names of the components of the solid solutions. -/
def components (c : Cell) : List (List Name) :=
  match c.ss with
  | none => []
  | some l => l.map fun s => s.comps.map (·.name)

/-- How a gas is treated: none, as a whole, or by components. -/
def treatment (k : Knobs) (c : Cell) : Option Bool := c.gas.map k.each

/-- What `check_same_model` does not look at is the same, too: the components of solid solutions, whether there is a gas
and how it is treated. -/
def Alike (k₁ : Knobs) (c₁ : Cell) (k₂ : Knobs) (c₂ : Cell) : Prop :=
  components c₁ = components c₂ ∧ treatment k₁ c₁ = treatment k₂ c₂

/-- An unknown without what a calculation may write into it. -/
def wipe : Unk → Unk
  | .mb n _ => .mb n 0
  | .cb _ => .cb 0
  | .mh _ => .mh 0
  | .mh2o _ => .mh2o 0
  | .exch n _ => .exch n 0
  | .pp n _ _ _ _ => .pp n 0 0 0 false
  | .gas _ => .gas 0
  | .gasEach n _ => .gasEach n 0
  | .ss p _ _ _ => .ss p "" "" 0

/-- A calculation changes amounts but not which unknowns there are. -/
def Calculation (f : List Unk → List Unk) : Prop := ∀ xs, (f xs).map wipe = xs.map wipe

/-- The systems `check_same_model` takes for the same. -/
structure SameSystem (db : Db) (k₁ : Knobs) (c₁ : Cell) (k₂ : Knobs) (c₂ : Cell) : Prop where
  elements : ∀ m ∈ db.masters, m.role ≠ .skip → (0 < c₁.tot m.name ↔ 0 < c₂.tot m.name)
  gases : (c₁.gas.map fun g => g.comps.map (·.1)).getD [] = (c₂.gas.map fun g => g.comps.map (·.1)).getD []
  gasType : c₂.gas ≠ none → c₁.gas.map (·.type) = c₂.gas.map (·.type) ∧ k₁.numerical = k₂.numerical
  solutions : (c₁.ss.getD []).map (·.name) = (c₂.ss.getD []).map (·.name)
  minerals : (c₁.pp.getD []).map (fun p => (p.name, p.addFormula)) = (c₂.pp.getD []).map fun p => (p.name, p.addFormula)

/-- A calculation of a cell: the knobs, the cell and what the calculation does to the unknowns. -/
structure Job where
  k : Knobs
  c : Cell
  f : List Unk → List Unk

/-- The cell is as `step` leaves it, and the calculation keeps the unknowns. -/
def Job.Proper (db : Db) (j : Job) : Prop := Ready db j.c ∧ Calculation j.f

/-- Cells that `check_same_model` takes for the same are alike. -/
def Clear (db : Db) (i j : Job) : Prop := SameSystem db i.k i.c j.k j.c → Alike i.k i.c j.k j.c

/-- One worker calculates one cell after the other. -/
def runs (db : Db) : List Job → Worker → Res Worker
  | [], w => .ok w
  | j :: l, w => (prep db j.k j.c w).bind fun w' => runs db l { w' with xs := j.f w'.xs }

end Verif.Reuse.Spec
