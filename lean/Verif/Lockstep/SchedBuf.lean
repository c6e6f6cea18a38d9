import Verif.Lockstep.Verdict

/-!
# Lemmas: a schedule with buffered messages, and processes that cannot go on
-/

namespace Verif.Lockstep

variable {n : Nat} {σ : Type}

/-- The process has a message buffered. -/
def pushAt (act : Nat → σ → Act σ) (n : Nat) (C : Config σ) (p : Nat) : Option (Config σ) :=
  match act p (C.ps p) with
  | .send q v s =>
    if q < n then
      some ⟨Function.update C.ps p s, Function.update C.ch (p, q) (C.ch (p, q) ++ [v])⟩
    else none
  | _ => none

/-- The process receives a buffered message. -/
def popAt (act : Nat → σ → Act σ) (n : Nat) (C : Config σ) (q : Nat) : Option (Config σ) :=
  match act q (C.ps q) with
  | .recv p ty c k =>
    match C.ch (p, q) with
    | v :: l =>
      if p < n ∧ v.ty = ty ∧ v.len ≤ c then
        some ⟨Function.update C.ps q (k v), Function.update C.ch (p, q) l⟩
      else none
    | [] => none
  | _ => none

/-- One step with buffering. -/
def nextBuf (act : Nat → σ → Act σ) (n : Nat) (C : Config σ) : Option (Config σ) :=
  if (List.range n).all (fun p => (act p (C.ps p)).isColl) = true then next act n C
  else ((List.range n).findSome? (popAt act n C)).or ((List.range n).findSome? (pushAt act n C))

theorem nextBuf_sound {act : Nat → σ → Act σ} {C D : Config σ} (h : nextBuf act n C = some D) :
    ∃ a, Step act n a C D := by
  unfold nextBuf at h
  split at h
  · exact next_sound h
  · rcases Option.or_eq_some_iff.1 h with h | ⟨-, h⟩
    · obtain ⟨q, hq, h⟩ := List.exists_of_findSome?_eq_some h
      have hq := List.mem_range.1 hq
      unfold popAt at h
      split at h
      · rename_i p ty c k h1
        split at h
        · rename_i v l hv
          split at h
          · rename_i hc
            cases h
            exact ⟨_, Step.pop hc.1 hq h1 hv hc.2⟩
          · cases h
        · cases h
      · cases h
    · obtain ⟨p, hp, h⟩ := List.exists_of_findSome?_eq_some h
      have hp := List.mem_range.1 hp
      unfold pushAt at h
      split at h
      · rename_i q v s h1
        split at h
        · rename_i hq
          cases h
          exact ⟨_, Step.push hp hq h1⟩
        · cases h
      · cases h

/-- Several steps with buffering. -/
def stepsBuf (act : Nat → σ → Act σ) (n : Nat) : Nat → Config σ → Option (Config σ)
  | 0, C => some C
  | k + 1, C => (nextBuf act n C).bind (stepsBuf act n k)

theorem stepsBuf_sound {act : Nat → σ → Act σ} {k : Nat} {C D : Config σ}
    (h : stepsBuf act n k C = some D) : Exec act n k C D := by
  induction k generalizing C with
  | zero => cases h; exact .nil _
  | succ k ih =>
    simp only [stepsBuf] at h
    cases hn : nextBuf act n C with
    | none => rw [hn] at h; cases h
    | some C1 =>
      rw [hn] at h
      obtain ⟨a, ha⟩ := nextBuf_sound hn
      exact .cons ha (ih h)

/-- A test of the processes after some steps with buffering. -/
def afterBuf (act : Nat → σ → Act σ) (n k : Nat) (C : Config σ) (f : Config σ → Bool) : Bool :=
  match stepsBuf act n k C with
  | some D => f D
  | none => false

theorem afterBuf_sound {act : Nat → σ → Act σ} {k : Nat} {C : Config σ} {f : Config σ → Bool}
    (h : afterBuf act n k C f = true) : ∃ D, Exec act n k C D ∧ f D = true := by
  unfold afterBuf at h
  split at h
  · rename_i D hD
    exact ⟨D, stepsBuf_sound hD, h⟩
  · cases h

/-- The process waits for a message that is not there. -/
def starves (act : Nat → σ → Act σ) (C : Config σ) (q : Nat) : Bool :=
  match act q (C.ps q) with
  | .recv p _ _ _ => (C.ch (p, q)).isEmpty
  | .send .. => false
  | _ => true

theorem stuck_of_starving {act : Nat → σ → Act σ} {C : Config σ}
    (hs : (List.range n).all (starves act C) = true)
    (hc : (List.range n).any (fun p => !(act p (C.ps p)).isColl) = true) (a : Label) (D : Config σ) :
    ¬ Step act n a C D := by
  have hs : ∀ p < n, starves act C p = true := fun p hp => List.all_eq_true.1 hs p (List.mem_range.2 hp)
  obtain ⟨p0, hp0, hc⟩ := List.any_eq_true.1 hc
  have hp0 := List.mem_range.1 hp0
  intro h
  cases h with
  | coll cs ks rs h hm' => rw [h p0 hp0] at hc; cases hc
  | push hp hq h => have := hs _ hp; unfold starves at this; rw [h] at this; cases this
  | pop hp hq h hv =>
    have := hs _ hq
    unfold starves at this
    rw [h] at this
    dsimp only at this
    rw [hv] at this
    cases this
  | rdv hp hq h => have := hs _ hp; unfold starves at this; rw [h] at this; cases this

end Verif.Lockstep
