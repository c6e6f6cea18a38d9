import Mathlib.Tactic.ByContra

/-!
# Shared vocabulary of the model
-/

namespace Verif

/-- Result codes, `/repo/src/IrmResult.h:8-17`. -/
inductive IRM where
  | ok            -- 0
  | outOfMemory   -- -1
  | badVarType    -- -2
  | invalidArg    -- -3
  | invalidRow    -- -4
  | invalidCol    -- -5
  | badInstance   -- -6
  | fail          -- -7
  deriving DecidableEq, Repr

/-- Numeric value of a result code, `/repo/src/IrmResult.h:8-17`. -/
def IRM.toInt : IRM → Int
  | .ok => 0
  | .outOfMemory => -1
  | .badVarType => -2
  | .invalidArg => -3
  | .invalidRow => -4
  | .invalidCol => -5
  | .badInstance => -6
  | .fail => -7

/-- Outcome of a C++ function: a value, a thrown exception, or undefined
behaviour (out-of-bounds access, null dereference, division by zero, ...). -/
inductive Out (α : Type) where
  | ok (a : α)
  | throw
  | ub
  deriving DecidableEq, Repr

/-- Sequencing of outcomes. -/
def Out.bind {α β : Type} : Out α → (α → Out β) → Out β
  | .ok a, f => f a
  | .throw, _ => .throw
  | .ub, _ => .ub

instance : Monad Out where
  pure := Out.ok
  bind := Out.bind

@[simp] theorem Out.pure_eq {α : Type} (a : α) : (pure a : Out α) = .ok a := rfl
@[simp] theorem Out.ok_bind {α β : Type} (a : α) (f : α → Out β) : (Out.ok a >>= f) = f a := rfl
@[simp] theorem Out.throw_bind {α β : Type} (f : α → Out β) : ((Out.throw : Out α) >>= f) = .throw := rfl
@[simp] theorem Out.ub_bind {α β : Type} (f : α → Out β) : ((Out.ub : Out α) >>= f) = .ub := rfl

instance : LawfulMonad Out := LawfulMonad.mk'
  (id_map := by intro α x; cases x <;> rfl)
  (pure_bind := by intros; rfl)
  (bind_assoc := by intro α β γ x f g; cases x <;> rfl)

end Verif
