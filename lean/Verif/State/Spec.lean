import Verif.State.Model

/-!
# What saved states should do

An abstract machine: the current contents and a map from id to contents.
-/

namespace Verif.State

open Verif.Store Verif.OMap

/-- Contents of the module: the ranges, and reactants and unsaturated-zone solids of every
worker. -/
structure Snap (α : Type) where
  ranges : List (Int × Int)
  cells  : List (Maps α × Maps α)

/-- The abstract machine. -/
structure Abs (α : Type) where
  cur   : Snap α
  saved : Int → Option (Snap α)

/-- What a user can do. `update` stands for anything else that changes the reactants or the
ranges (setting concentrations, running, rebalancing, ...). -/
inductive Op (α : Type)
  | save (id : Int)
  | apply (id : Int)
  | delete (id : Int)
  | update (f : Snap α → Snap α)

/-- The specification. -/
def Abs.step {α : Type} (a : Abs α) : Op α → IRM × Abs α
  | .save id => (.ok, { a with saved := fun i => if i = id then some a.cur else a.saved i })
  | .apply id =>
    match a.saved id with
    | none => (.invalidArg, a)
    | some c => (.ok, { a with cur := c })
  | .delete id =>
    match a.saved id with
    | none => (.invalidArg, a)
    | some _ => (.ok, { a with saved := fun i => if i = id then none else a.saved i })
  | .update f => (.ok, { a with cur := f a.cur })

/-- Return codes and final state of a history. -/
def Abs.run {α : Type} : Abs α → List (Op α) → List IRM × Abs α
  | a, [] => ([], a)
  | a, op :: ops => ((a.step op).1 :: ((a.step op).2.run ops).1, ((a.step op).2.run ops).2)

/-- Entities are stored under their own number. -/
def GoodMaps {α : Type} (m : Maps α) : Prop :=
  ∀ k, Sorted (m k) ∧ ∀ p ∈ m k, p.2.nUser = p.1

/-- Contents of a module with `n` workers. -/
structure GoodSnap {α : Type} (n : Nat) (c : Snap α) : Prop where
  ranges : c.ranges.length = n
  cells  : c.cells.length = n
  maps   : ∀ p ∈ c.cells, GoodMaps p.1

/-- Updates keep the number of workers and number entities properly. -/
def Op.Good {α : Type} (n : Nat) : Op α → Prop
  | .update f => ∀ c, GoodSnap n c → GoodSnap n (f c)
  | _ => True

/-- Contents of a modelled module. -/
def snap {α : Type} (s : SState α) : Snap α := ⟨s.ranges, s.workers.map (fun w => (w.rx, w.uz))⟩

/-- Replace the contents, keeping the saved states. -/
def putSnap {α : Type} (c : Snap α) (s : SState α) : SState α :=
  { ranges := c.ranges
    workers := (s.workers.zip c.cells).map (fun p => { p.1 with rx := p.2.1, uz := p.2.2 }) }

/-- The modelled module doing an operation. -/
def step {α : Type} (s : SState α) : Op α → Out (IRM × SState α)
  | .save id => stateSave s id
  | .apply id => stateApply s id
  | .delete id => stateDelete s id
  | .update f => .ok (.ok, putSnap (f (snap s)) s)

/-- Return codes and final state of a history of the module. -/
def run {α : Type} : SState α → List (Op α) → Out (List IRM × SState α)
  | s, [] => .ok ([], s)
  | s, op :: ops => do
    let r ← step s op
    let q ← run r.2 ops
    .ok (r.1 :: q.1, q.2)

end Verif.State
