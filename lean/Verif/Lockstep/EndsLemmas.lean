import Verif.Lockstep.Ends

/-!
# Lemmas: executions of programs of calls
-/

namespace Verif.Lockstep

open Spec

variable {n : Nat} {χ : Type} {E : Engine χ}

theorem shows_done (hn : 0 < n) {s u : Nat → St χ} {rs : List (Res IRM)} :
    Shows n rs u (done E n s u rs) := by
  refine ⟨?_, ?_, ?_⟩
  · simp [done, endCfg, hn]
  · intro p h0 hp
    simp [done, endCfg, hp, Nat.pos_iff_ne_zero.1 h0]
  · intro c; rfl

theorem ends_of_run (hn : 0 < n) {cs : List Call} {s u : Nat → St χ} {rs : List (Res IRM)} {w : Nat}
    (h : Run (pact E n) n w (start E n cs s) (done E n s u rs)) : Ends E n cs s rs u := by
  refine ⟨w, fun m D he => ?_⟩
  obtain ⟨w', hw, hr⟩ := Exec.bounded hn he h (done_final ..)
  refine ⟨by omega, ?_⟩
  cases hr with
  | nil => exact Or.inl (shows_done hn)
  | cons _ st _ => exact Or.inr ⟨_, _, st⟩

end Verif.Lockstep
