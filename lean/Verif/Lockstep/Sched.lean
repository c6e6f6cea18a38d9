import Verif.Lockstep.Session

/-!
# Lemmas: one schedule that can be computed, and calls that report errors
-/

namespace Verif.Lockstep

open Spec

variable {n : Nat} {χ α β γ σ : Type} {E : Engine χ}

/-- The process is in a collective call. -/
def Act.isColl : Act σ → Bool
  | .coll .. => true
  | _ => false

/-- The collective call of the process. -/
def Act.coll? : Act σ → Coll
  | .coll c _ => c
  | _ => .barrier

/-- The state after the collective call. -/
def Act.after (d : σ) : Act σ → Reply → σ
  | .coll _ k => k
  | _ => fun _ => d

/-- The processes after a message from `p` to `q` is handed over. -/
def handOver (act : Nat → σ → Act σ) (C : Config σ) (p q : Nat) : Option (Config σ) :=
  match act p (C.ps p), act q (C.ps q) with
  | .send q' v s, .recv p' ty c k =>
    if q' = q ∧ p' = p ∧ v.ty = ty ∧ v.len ≤ c ∧ (C.ch (p, q)).isEmpty = true then
      some ⟨Function.update (Function.update C.ps p s) q (k v), C.ch⟩
    else none
  | _, _ => none

/-- One step without buffering. -/
def next (act : Nat → σ → Act σ) (n : Nat) (C : Config σ) : Option (Config σ) :=
  if (List.range n).all (fun p => (act p (C.ps p)).isColl) = true then
    match meet n (fun p => (act p (C.ps p)).coll?) with
    | some rs => some ⟨fun p => if p < n then (act p (C.ps p)).after (C.ps p) (rs p) else C.ps p, C.ch⟩
    | none => none
  else ((List.range n).flatMap (fun p => (List.range n).map (fun q => (p, q)))).findSome?
    (fun e => handOver act C e.1 e.2)

theorem next_sound {act : Nat → σ → Act σ} {C D : Config σ} (h : next act n C = some D) :
    ∃ a, Step act n a C D := by
  unfold next at h
  split at h
  · rename_i hall
    split at h
    · rename_i rs hm
      cases h
      refine ⟨.coll, Step.coll _ _ rs ?_ hm⟩
      intro p hp
      have := List.all_eq_true.1 hall p (List.mem_range.2 hp)
      cases hact : act p (C.ps p) with
      | coll c k => rfl
      | _ => rw [hact] at this; cases this
    · cases h
  · obtain ⟨⟨p, q⟩, he, h⟩ := List.exists_of_findSome?_eq_some h
    obtain ⟨p', hp, he⟩ := List.mem_flatMap.1 he
    obtain ⟨q', hq, he⟩ := List.mem_map.1 he
    cases he
    have hp := List.mem_range.1 hp
    have hq := List.mem_range.1 hq
    unfold handOver at h
    split at h
    · rename_i q' v s p' ty c k h1 h2
      split at h
      · rename_i hc
        obtain ⟨rfl, rfl, hc1, hc2, hc3⟩ := hc
        cases h
        exact ⟨_, Step.rdv hp hq h1 h2 (List.isEmpty_iff.1 hc3) ⟨hc1, hc2⟩⟩
      · cases h
    · cases h

/-- Several steps without buffering. -/
def steps (act : Nat → σ → Act σ) (n : Nat) : Nat → Config σ → Option (Config σ)
  | 0, C => some C
  | k + 1, C => (next act n C).bind (steps act n k)

theorem steps_sound {act : Nat → σ → Act σ} {k : Nat} {C D : Config σ} (h : steps act n k C = some D) :
    Exec act n k C D := by
  induction k generalizing C with
  | zero => cases h; exact .nil _
  | succ k ih =>
    simp only [steps] at h
    cases hn : next act n C with
    | none => rw [hn] at h; cases h
    | some C1 =>
      rw [hn] at h
      obtain ⟨a, ha⟩ := next_sound hn
      exact .cons ha (ih h)

/-- Processes in collective calls that do not match cannot go on. -/
theorem stuck_of_mismatch {act : Nat → σ → Act σ} {C : Config σ} (h0 : 0 < n)
    (hall : (List.range n).all (fun p => (act p (C.ps p)).isColl) = true)
    (hm : (meet n (fun p => (act p (C.ps p)).coll?)).isNone = true) (a : Label) (D : Config σ) :
    ¬ Step act n a C D := by
  have hcoll : ∀ p < n, (act p (C.ps p)).isColl = true :=
    fun p hp => List.all_eq_true.1 hall p (List.mem_range.2 hp)
  intro h
  cases h with
  | coll cs ks rs h hm' =>
    rw [meet_congr h0 (g' := cs) (fun p hp => by rw [h p hp]; rfl), hm'] at hm
    cases hm
  | push hp hq h => have := hcoll _ hp; rw [h] at this; cases this
  | pop hp hq h => have := hcoll _ hq; rw [h] at this; cases this
  | rdv hp hq h => have := hcoll _ hp; rw [h] at this; cases this

end Verif.Lockstep
