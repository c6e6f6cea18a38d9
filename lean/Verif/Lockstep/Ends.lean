import Verif.Lockstep.Verdict

/-!
# What a user expects of executions
-/

namespace Verif.Lockstep.Spec

open Verif.Lockstep

variable {χ : Type}

/-- The program of the user has ended with results `rs`, the workers have left `MpiWorker`, the data
of the processes are `u`, and no message is left. -/
def Shows (n : Nat) (rs : List (Res IRM)) (u : Nat → St χ)
    (D : Config (PState χ (List (Res IRM) × St χ))) : Prop :=
  D.ps 0 = .root (.ret (rs, u 0)) ∧ (∀ p, 0 < p → p < n → D.ps p = .ended (u p)) ∧ ∀ c, D.ch c = []

/-- Whatever the order of the steps and whether or not messages are buffered, the processes get to the
end of the program of calls: an execution has a bounded number of steps, and as long as the end with
results `rs` and data `u` is not reached, there is a next step. -/
def Ends (E : Engine χ) (n : Nat) (cs : List Call) (s : Nat → St χ) (rs : List (Res IRM))
    (u : Nat → St χ) : Prop :=
  ∃ bound, ∀ m D, Exec (pact E n) n m (start E n cs s) D →
    m ≤ bound ∧ (Shows n rs u D ∨ ∃ a D', Step (pact E n) n a D D')

/-- No process can go on. -/
def Halted (E : Engine χ) (n : Nat) (D : Config (PState χ (List (Res IRM) × St χ))) : Prop :=
  ∀ a D', ¬ Step (pact E n) n a D D'

end Verif.Lockstep.Spec
