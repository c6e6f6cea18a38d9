import Verif.Registry.Model

/-!
# What the registry promises

A history is the list of calls with what they returned, latest first. Which modules are alive is
read off the history, not off the registry.
-/

namespace Verif.Registry

/-- Histories, latest call first. -/
abbrev Trace := List (Op × Reply)

/-- The module with identifier `id` is alive after the history and is `o`. -/
def Live (id : Int) (o : Obj) : Trace → Prop
  | [] => False
  | (.create o' good, r) :: t => (good = true ∧ r = .made id ∧ o' = o) ∨ Live id o t
  | (.destroy id', _) :: t => id' ≠ id ∧ Live id o t
  | (.destroyBMI id', _) :: t => (id' = id → o.bmi = false) ∧ Live id o t
  | (.cleanup, _) :: _ => False
  | (.cleanupBMI, _) :: t => o.bmi = false ∧ Live id o t
  | (.drop i, _) :: t => (i : Int) ≠ id ∧ Live id o t
  | (_, _) :: t => Live id o t

/-- Identifiers issued, latest first. -/
def issued : Trace → List Int
  | [] => []
  | (.create _ true, .made id) :: t => id :: issued t
  | _ :: t => issued t

/-- Number of constructions, successful or not. -/
def made : Trace → Nat
  | [] => 0
  | (.create _ _, _) :: t => made t + 1
  | _ :: t => made t

/-- The registry after a history. -/
inductive Runs : Trace → Reg → Prop
  | nil : Runs [] start
  | cons {t : Trace} {s s' : Reg} {op : Op} {r : Reply} :
      Runs t s → exec s op = .ok (s', r) → Runs ((op, r) :: t) s'

end Verif.Registry
