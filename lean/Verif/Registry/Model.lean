import Verif.Base
import Verif.OMap.Basic
import Mathlib.Algebra.Order.Field.Rat

/-!
# The registry of modules

`StaticIndexer<PhreeqcRM>` (`/repo/src/PhreeqcRM.h:125-258`), the static functions of `PhreeqcRM`
(`/repo/src/PhreeqcRM.cpp:74-108`) and of `BMIPhreeqcRM` (`/repo/src/BMIPhreeqcRM.cpp:21-103`).

Objects are named by the index given to them by the constructor of `StaticIndexer`. A mutex locked
again by its owner is undefined behaviour in C++; `std::mutex` then blocks for ever on the
supported platforms, so it is the separate outcome `hang`. Every function here is one step: the
threads of a program interleave whole calls. (`Destroy` and `DestroyAll` do not take the lock
before searching; what can go wrong between threads is in `Verif/Registry/Threads.lean`.)
-/

namespace Verif.Registry

open Verif.OMap

/-- Outcome of a call: it returns, blocks for ever, or is undefined. -/
inductive Res (α : Type) where
  | ok (a : α)
  | hang
  | ub
  deriving DecidableEq, Repr

/-- Sequencing. -/
def Res.bind {α β : Type} : Res α → (α → Res β) → Res β
  | .ok a, f => f a
  | .hang, _ => .hang
  | .ub, _ => .ub

instance : Monad Res where
  pure := Res.ok
  bind := Res.bind

@[simp] theorem Res.ok_bind {α β : Type} (a : α) (f : α → Res β) : (Res.ok a >>= f) = f a := rfl
@[simp] theorem Res.hang_bind {α β : Type} (f : α → Res β) : ((Res.hang : Res α) >>= f) = .hang :=
  rfl
@[simp] theorem Res.ub_bind {α β : Type} (f : α → Res β) : ((Res.ub : Res α) >>= f) = .ub := rfl
@[simp] theorem Res.pure_eq {α : Type} (a : α) : (pure a : Res α) = .ok a := rfl

instance : LawfulMonad Res := LawfulMonad.mk'
  (id_map := by intro α x; cases x <;> rfl)
  (pure_bind := by intros; rfl)
  (bind_assoc := by intro α β γ x f g; cases x <;> rfl)

/-- A module: whether it is a `BMIPhreeqcRM`, and whether it was made with `new`. -/
structure Obj where
  bmi  : Bool
  heap : Bool
  deriving DecidableEq, Repr

/-- The static members, `/repo/src/PhreeqcRM.h:243-246`. -/
structure Reg where
  next   : Nat            -- _InstancesIndex
  inst   : SMap Nat Obj   -- _Instances
  locked : Bool           -- _InstancesLock
  deriving DecidableEq, Repr

/-- `size_t(id)` of an `int`, `/repo/src/PhreeqcRM.h:151`. -/
def sizeT (id : Int) : Nat := (id % 2 ^ 64).toNat

/-- `(int)this->_Index`, `/repo/src/PhreeqcRM.h:236-239`: the low 32 bits as a signed number. -/
def toInt (i : Nat) : Int := if i % 2 ^ 32 < 2 ^ 31 then (i % 2 ^ 32 : Nat) else (i % 2 ^ 32 : Nat) - 2 ^ 32

/-- `const std::lock_guard<std::mutex> lock(_InstancesLock); ...` -/
def withLock {α : Type} (s : Reg) (body : Reg → Res (Reg × α)) : Res (Reg × α) :=
  if s.locked then .hang
  else do
    let p ← body { s with locked := true }
    .ok ({ p.1 with locked := false }, p.2)

/-- The constructor, `/repo/src/PhreeqcRM.h:130-135`: the new index. -/
def ctor (s : Reg) (o : Obj) : Res (Reg × Nat) :=
  withLock s (fun s => .ok ({ s with next := (s.next + 1) % 2 ^ 64, inst := OMap.insert s.inst s.next o }, s.next))

/-- The destructor, `/repo/src/PhreeqcRM.h:137-146` (assertions off). -/
def dtor (s : Reg) (i : Nat) : Res (Reg × Unit) :=
  withLock s (fun s => .ok ({ s with inst := erase s.inst i }, ()))

/-- `delete` of a module found in the registry: undefined unless it was made with `new`. -/
def delete (s : Reg) (p : Nat × Obj) : Res (Reg × Unit) :=
  if p.2.heap then dtor s p.1 else .ub

/-- `GetInstance`, `/repo/src/PhreeqcRM.h:148-157`: the module found. -/
def getInstance (s : Reg) (id : Int) : Res (Reg × Option Obj) :=
  withLock s (fun s => .ok (s, find s.inst (sizeT id)))

/-- `Destroy`, `/repo/src/PhreeqcRM.h:174-184`. -/
def destroy (s : Reg) (id : Int) : Res (Reg × IRM) :=
  match find s.inst (sizeT id) with
  | some o => do
    let p ← delete s (sizeT id, o)
    .ok (p.1, .ok)
  | none => .ok (s, .badInstance)

/-- `for (auto item : items) delete item;` -/
def deleteAll (s : Reg) (items : List (Nat × Obj)) : Res (Reg × Unit) :=
  items.foldlM (fun (s : Reg × Unit) p => delete s.1 p) (s, ())

/-- `DestroyAll`, `/repo/src/PhreeqcRM.h:201-213`. -/
def destroyAll (s : Reg) : Res (Reg × Unit) := deleteAll s s.inst

/-- `CleanupBMIModuleInstances`, `/repo/src/BMIPhreeqcRM.cpp:23-42`. -/
def cleanupBMI (s : Reg) : Res (Reg × Unit) :=
  withLock s (fun s => deleteAll s (s.inst.filter (fun p => p.2.bmi)))

/-- `BMIPhreeqcRM::GetInstance`, `/repo/src/BMIPhreeqcRM.cpp:98-103`. -/
def getBMI (s : Reg) (id : Int) : Res (Reg × Option Obj) := do
  let p ← getInstance s id
  .ok (p.1, p.2.filter (fun o => o.bmi))

/-- `DestroyBMIModule`, `/repo/src/BMIPhreeqcRM.cpp:86-95`. -/
def destroyBMI (s : Reg) (id : Int) : Res (Reg × IRM) := do
  let p ← getBMI s id
  match p.2 with
  | some _ => destroy p.1 id
  | none => .ok (p.1, .badInstance)

/-- `CreateReactionModule` `/repo/src/PhreeqcRM.cpp:82-102`, `CreateBMIModule`
`/repo/src/BMIPhreeqcRM.cpp:44-84`, and construction by a C++ program. `good` tells whether the
rest of the constructor of `PhreeqcRM` succeeds; if it throws, the base class is destroyed and
`IRM_OUTOFMEMORY` returned. -/
def create (s : Reg) (o : Obj) (good : Bool) : Res (Reg × Int) := do
  let p ← ctor s o
  if good then .ok (p.1, toInt p.2)
  else do
    let q ← dtor p.1 p.2
    .ok (q.1, IRM.outOfMemory.toInt)

/-- A C++ program destroys the module with index `i` itself (end of scope, `delete`). It may only
do that to a module it has. -/
def drop (s : Reg) (i : Nat) : Res (Reg × Unit) :=
  match find s.inst i with
  | some _ => dtor s i
  | none => .ub

/-- Calls. -/
inductive Op
  | create (o : Obj) (good : Bool)
  | get (id : Int)
  | getBMI (id : Int)
  | destroy (id : Int)
  | destroyBMI (id : Int)
  | cleanup
  | cleanupBMI
  | drop (i : Nat)
  deriving DecidableEq

/-- What a call returns. -/
inductive Reply
  | made (id : Int)
  | found (o : Option Obj)
  | code (r : IRM)
  | done
  deriving DecidableEq, Repr

/-- One call. `CleanupReactionModuleInstances` is `DestroyAll`, `/repo/src/PhreeqcRM.cpp:76-80`. -/
def exec (s : Reg) : Op → Res (Reg × Reply)
  | .create o good => do let p ← create s o good; .ok (p.1, .made p.2)
  | .get id => do let p ← getInstance s id; .ok (p.1, .found p.2)
  | .getBMI id => do let p ← getBMI s id; .ok (p.1, .found p.2)
  | .destroy id => do let p ← destroy s id; .ok (p.1, .code p.2)
  | .destroyBMI id => do let p ← destroyBMI s id; .ok (p.1, .code p.2)
  | .cleanup => do let p ← destroyAll s; .ok (p.1, .done)
  | .cleanupBMI => do let p ← cleanupBMI s; .ok (p.1, .done)
  | .drop i => do let p ← drop s i; .ok (p.1, .done)

/-- At program start. -/
def start : Reg := ⟨0, [], false⟩

end Verif.Registry
