import Verif.Lockstep.Sched

/-!
# Lemmas: results of calls that report errors of the processes
-/

namespace Verif.Lockstep

open Spec

variable {n : Nat} {χ α β γ σ : Type} {E : Engine χ}

/-- The call is served and its result is `IRM_OK` just if `bad` does not hold. -/
def Verdict (E : Engine χ) (n : Nat) (c : Call) (s : Nat → St χ) (r0 : Nat → Res IRM) (bad : Prop) : Prop :=
  ∃ (r : Nat → Res IRM) (s' : Nat → St χ),
    Served E n (perform E n c (s 0)) (fun p => (r0 p, s p)) (r 0, s' 0) (fun p => (r p, s' p)) ∧
    (∀ p < n, (r p).Alive) ∧ Ready n s' ∧ (r 0 = .ok .ok ↔ ¬ bad)

theorem verdict_fin {s s1 : Nat → St χ} (h : Ready n s) (hn : 0 < n) {c : Call} (m : Method)
    (hm : m ≠ .workerBreak) (G : Nat → M (St χ) IRM)
    (hp : Tells m (perform E n c (s 0)) (G 0 (s1 0)))
    (hw : ∀ p < n, p ≠ 0 → dispatch E n p m (s p) = G p (s1 p)) {bad : Prop} [Decidable bad]
    (ht : Fin' n G s1 (fun a s' => (∀ p < n, Soft (s p) (s' p)) ∧ (a = fun _ => if bad then .fail else .ok))
      (fun s' => bad ∧ ∀ p < n, Soft (s p) (s' p))) (r0 : Nat → Res IRM) (ha : ∀ p < n, (r0 p).Alive) :
    Verdict E n c s r0 bad := by
  cases ht with
  | ok a s' h1 q =>
    obtain ⟨q1, rfl⟩ := q
    refine ⟨_, s', Served.told m hm G hp hw ha h1, fun _ _ => alive_ok _, ready_soft h hn q1, ?_⟩
    by_cases hb : bad <;> simp [hb]
  | threw s' h1 q =>
    refine ⟨_, s', Served.told m hm G hp hw ha h1, fun _ _ => alive_threw, ready_soft h hn q.2, ?_⟩
    simp [q.1]

theorem verdict_load {s : Nat → St χ} (h : Ready n s) (hn : 0 < n) (t : List Char)
    (r0 : Nat → Res IRM) (ha : ∀ p < n, (r0 p).Alive) :
    Verdict E n (.loadDatabase t) s r0 (t = [] ∨ ∃ p < n, (E.load t (s p).chem).2.1 ≠ 0) := by
  refine verdict_fin h hn .loadDatabase nofun (fun p => loadBody E n p (if p = 0 then t else [' ']))
    (s1 := fun p => (s p).clear) ⟨_, rfl, rfl⟩ (fun p _ h0 => by rw [dispatch_load h0, if_neg h0]) ?_ r0 ha
  refine (fin_load h hn _ (fun p _ => Soft.clear _)).mono ?_ ?_
  · rintro a s' ⟨k1, rfl⟩
    refine ⟨k1, ?_⟩
    exact funext (fun _ => if_congr Iff.rfl rfl rfl)
  · exact fun _ k => k

theorem verdict_runFile {s : Nat → St χ} (h : Ready n s) (hn : 0 < n) (w i u : Bool) (t : List Char)
    (ht : t ≠ []) (r0 : Nat → Res IRM) (ha : ∀ p < n, (r0 p).Alive) :
    Verdict E n (.runFile w i u t) s r0 (w = true ∧ ∃ p < n, (E.runFile 0 t (s p).chem).2 ≠ 0) := by
  refine verdict_fin h hn .runFile nofun (fun p => runFileBody E n p (if p = 0 then w else false)
    (if p = 0 then i else false) (if p = 0 then u else false) (if p = 0 then t else [' ']))
    (s1 := fun p => (s p).clear) ⟨_, rfl, rfl⟩
    (fun p _ h0 => by simp only [dispatch_runFile h0, if_neg h0]) ?_ r0 ha
  refine (fin_runFile h hn _ _ _ _ (fun p _ => Soft.clear _)).mono ?_ ?_
  · rintro a s' ⟨k1, k2⟩
    refine ⟨k1, ?_⟩
    rw [k2 (by simpa using ht)]
    exact funext (fun _ => if_congr Iff.rfl rfl rfl)
  · rintro s' ⟨k1, k2⟩
    refine ⟨?_, k2⟩
    rcases k1 with k1 | k1
    · exact absurd (by simpa using k1) ht
    · exact k1

theorem verdict_runString {s : Nat → St χ} (h : Ready n s) (hn : 0 < n) (w i u : Bool) (t : List Char)
    (r0 : Nat → Res IRM) (ha : ∀ p < n, (r0 p).Alive) :
    Verdict E n (.runString w i u t) s r0 (w = true ∧ ∃ p < n, (E.runString 0 t (s p).chem).2 ≠ 0) := by
  refine verdict_fin h hn .runString nofun (fun p => runStringBody E n p (if p = 0 then w else false)
    (if p = 0 then i else false) (if p = 0 then u else false) (if p = 0 then t else [' ']))
    (s1 := fun p => (s p).clear) ⟨_, rfl, rfl⟩
    (fun p _ h0 => by simp only [dispatch_runString h0, if_neg h0]) ?_ r0 ha
  refine (fin_runString h hn _ _ _ _ (fun p _ => Soft.clear _)).mono ?_ ?_
  · rintro a s' ⟨k1, rfl⟩
    refine ⟨k1, ?_⟩
    exact funext (fun _ => if_congr Iff.rfl rfl rfl)
  · exact fun _ k => k

/-- A test of the processes after some steps. -/
def after (act : Nat → σ → Act σ) (n k : Nat) (C : Config σ) (f : Config σ → Bool) : Bool :=
  match steps act n k C with
  | some D => f D
  | none => false

theorem after_sound {act : Nat → σ → Act σ} {k : Nat} {C : Config σ} {f : Config σ → Bool}
    (h : after act n k C f = true) : ∃ D, Exec act n k C D ∧ f D = true := by
  unfold after at h
  split at h
  · rename_i D hD
    exact ⟨D, steps_sound hD, h⟩
  · cases h

end Verif.Lockstep
