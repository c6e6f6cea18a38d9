import Verif.Setters.Model
import Verif.Mapping.Props

/-!
# What the setters promise

Stated without the functions of the model: which calls are acceptable, which code a refused call
has, and which mode and units are in force after a history of calls.
-/

namespace Verif.Setters

/-- Acceptable calls, from the documentation in `/repo/src/PhreeqcRM.h` (mode 3 exists in OpenMP
builds only and is not documented). -/
def Good (openmp : Bool) (nxyz : Nat) : Call → Prop
  | .errorMode i => i = 0 ∨ i = 1 ∨ i = 2 ∨ (openmp = true ∧ i = 3)
  | .grid _ v => nxyz ≤ v.length
  | .mask v => nxyz ≤ v.length
  | .units .solution u => u = 1 ∨ u = 2 ∨ u = 3
  | .units _ u => u = 0 ∨ u = 1 ∨ u = 2
  | .dumpName n => n ≠ ""
  | .filePrefix n => n ≠ ""
  | _ => True

instance (openmp : Bool) (nxyz : Nat) (c : Call) : Decidable (Good openmp nxyz c) := by
  cases c with
  | units k u => cases k <;> (unfold Good; infer_instance)
  | _ => unfold Good; infer_instance

/-- The code of a refused call. -/
def refusal : Call → IRM
  | .grid _ _ => .fail
  | _ => .invalidArg

/-- The mode after one more call: a mode call puts its argument in force, and 0 when it is
refused. -/
def nextMode (openmp : Bool) (m : Int) : Call → Int
  | .errorMode i => if Good openmp 0 (.errorMode i) then i else 0
  | _ => m

/-- The error-handler mode in force after the calls `h`, oldest first. -/
def modeAfter (openmp : Bool) (h : List Call) : Int := h.foldl (nextMode openmp) 0

/-- The unit `k` after one more call: only an acceptable argument for `k` counts. -/
def nextUnit (k : UnitOf) (m : Int) : Call → Int
  | .units k' u => if k' = k ∧ Good false 0 (.units k u) then u else m
  | _ => m

/-- The unit in force after the calls `h`: the last acceptable argument, at first 1 (mg/L) for
solutions and 0 for the others. -/
def unitAfter (k : UnitOf) (h : List Call) : Int :=
  h.foldl (nextUnit k) (if k = .solution then 1 else 0)

/-- The state after the calls `h`, none of which ended the process. -/
inductive Runs (s0 : RM) : List Call → RM → Prop
  | nil : Runs s0 [] s0
  | snoc {h : List Call} {s s' : RM} {c : Call} {r : Ret} :
      Runs s0 h s → exec s c = .ok (s', r) → (∀ k, r ≠ .exited k) → Runs s0 (h ++ [c]) s'

/-- What the caller sees of a refused call in mode `m`. -/
def Refused (m : Int) (code : IRM) (r : Ret) : Prop :=
  (m = 0 → r = .value code) ∧ (m = 1 → r = .threw) ∧ (m = 2 → r = .exited code.toInt) ∧
  (m = 3 → r = .value code)

/-- The two states differ at most in the error messages. -/
def SameSettings (s s' : RM) : Prop := s' = { s with err := s'.err }

end Verif.Setters
