import Verif.Lockstep.Together

/-!
# Programs of the root served by the workers
-/

namespace Verif.Lockstep

variable {n : Nat} {α β γ χ : Type}

/-- The process goes on. -/
def Res.Alive (r : Res α) : Prop := r ≠ .exited ∧ r ≠ .ub

/-- The root has a program to run, the workers are at the loop of `MpiWorker`, no message is under
way. -/
def cfg (n : Nat) (P : Prog γ) (ws : Nat → Outcome χ) (rest : Nat → PState χ γ) :
    Config (PState χ γ) :=
  ⟨fun p => if p < n then (if p = 0 then .root P else .work (.ret (ws p))) else rest p, fun _ => []⟩

/-- All processes are in programs, those of the workers end in the loop. -/
def emb (n : Nat) (B : Nat → Prog β) (f : β → Prog γ) (g : Nat → β → Outcome χ)
    (rest : Nat → PState χ γ) : Config (PState χ γ) :=
  ⟨fun p => if p < n then (if p = 0 then .root ((B 0).bind f)
      else .work ((B p).bind (fun b => .ret (g p b)))) else rest p, fun _ => []⟩

theorem Together.run (E : Engine χ) {B : Nat → Prog β} {R : Nat → β} (h : Together n B R)
    (f : β → Prog γ) (g : Nat → β → Outcome χ) (rest : Nat → PState χ γ) :
    ∃ w, Run (pact E n) n w (emb n B f g rest) (cfg n (f (R 0)) (fun p => g p (R p)) rest) := by
  induction h with
  | @ret P R h =>
    refine ⟨0, ?_⟩
    have : emb n P f g rest = cfg n (f (R 0)) (fun p => g p (R p)) rest := by
      unfold emb cfg
      congr 1
      funext p
      by_cases hp : p < n
      · by_cases h0 : p = 0
        · subst h0; simp [hp, h 0 hp, Prog.bind]
        · simp [hp, h0, h p hp, Prog.bind]
      · simp [hp]
    rw [this]
    exact .nil _
  | @coll P R cs ks rs h hm t ih =>
    obtain ⟨w, hw⟩ := ih
    refine ⟨_, Run.cons (a := .coll) trivial ?_ hw⟩
    have hs := Step.coll (act := pact E n) (n := n) (C := emb n P f g rest) cs
      (fun p r => if p = 0 then .root ((ks 0 r).bind f)
        else .work ((ks p r).bind (fun b => .ret (g p b)))) rs (by
        intro p hp
        by_cases h0 : p = 0
        · subst h0; simp [emb, hp, h 0 hp, Prog.bind, pact]
        · simp [emb, hp, h0, h p hp, Prog.bind, pact]) hm
    have e : (⟨fun p => if p < n then (if p = 0 then PState.root ((ks 0 (rs p)).bind f)
        else .work ((ks p (rs p)).bind (fun b => .ret (g p b)))) else (emb n P f g rest).ps p,
        (emb n P f g rest).ch⟩ : Config (PState χ γ)) = emb n (fun p => ks p (rs p)) f g rest := by
      unfold emb
      congr 1
      funext p
      by_cases hp : p < n
      · by_cases h0 : p = 0
        · subst h0; simp [hp]
        · simp [hp, h0]
      · simp [hp]
    rw [e] at hs
    exact hs
  | @rdv P R p q v ty c k k' hp hq hs hr hf t ih =>
    obtain ⟨w, hw⟩ := ih
    refine ⟨_, Run.cons (a := .rdv p q) trivial ?_ hw⟩
    have hne : q ≠ p := by rintro rfl; rw [hs] at hr; cases hr
    have st := Step.rdv (act := pact E n) (n := n) (C := emb n P f g rest) (p := p) (q := q)
      (v := v) (ty := ty) (c := c)
      (s := if p = 0 then .root (k.bind f) else .work (k.bind (fun b => .ret (g p b))))
      (k := fun v => if q = 0 then .root ((k' v).bind f)
        else .work ((k' v).bind (fun b => .ret (g q b)))) hp hq (by
        by_cases h0 : p = 0
        · subst h0; simp [emb, hp, hs, Prog.bind, pact]
        · simp [emb, hp, h0, hs, Prog.bind, pact]) (by
        by_cases h0 : q = 0
        · subst h0; simp [emb, hq, hr, Prog.bind, pact]
        · simp [emb, hq, h0, hr, Prog.bind, pact]) rfl hf
    have e : (⟨Function.update (Function.update (emb n P f g rest).ps p
          (if p = 0 then .root (k.bind f) else .work (k.bind (fun b => .ret (g p b))))) q
          ((fun v => if q = 0 then PState.root ((k' v).bind f)
            else .work ((k' v).bind (fun b => .ret (g q b)))) v), (emb n P f g rest).ch⟩ :
        Config (PState χ γ)) =
        emb n (Function.update (Function.update P p k) q (k' v)) f g rest := by
      unfold emb
      congr 1
      funext j
      by_cases hj : j < n
      · by_cases h1 : j = q
        · subst h1
          by_cases h0 : j = 0
          · subst h0; simp [hj]
          · simp [hj, h0]
        · by_cases h2 : j = p
          · subst h2
            by_cases h0 : j = 0
            · subst h0; simp [hj, Function.update_of_ne h1]
            · simp [hj, h0, Function.update_of_ne h1]
          · by_cases h0 : j = 0
            · subst h0
              simp [hj, Function.update_of_ne h1, Function.update_of_ne h2]
            · simp [hj, h0, Function.update_of_ne h1, Function.update_of_ne h2]
      · have h1 : j ≠ q := by rintro rfl; exact hj hq
        have h2 : j ≠ p := by rintro rfl; exact hj hp
        simp [hj, Function.update_of_ne h1, Function.update_of_ne h2]
    rw [e] at st
    exact st

/-- The root's program `P`, with the workers in the loop of `MpiWorker`, ends with `a`, the workers
being back in the loop; whatever the root does next. -/
def Served (E : Engine χ) (n : Nat) (P : Prog α) (ws : Nat → Outcome χ) (a : α)
    (ws' : Nat → Outcome χ) : Prop :=
  ∀ (γ : Type) (f : α → Prog γ) (rest : Nat → PState χ γ),
    ∃ w, Run (pact E n) n w (cfg n (P.bind f) ws rest) (cfg n (f a) ws' rest)

namespace Served

variable {E : Engine χ} {ws ws' ws1 : Nat → Outcome χ}

theorem ret (a : α) : Served E n (.ret a) ws a ws := fun _ _ _ => ⟨0, .nil _⟩

theorem bind {P : Prog α} {f : α → Prog β} {a : α} {b : β} (h : Served E n P ws a ws1)
    (h' : Served E n (f a) ws1 b ws') : Served E n (P.bind f) ws b ws' := by
  intro γ g rest
  obtain ⟨w, hw⟩ := h γ (fun a => (f a).bind g) rest
  obtain ⟨w', hw'⟩ := h' γ g rest
  rw [Prog.bind_assoc]
  exact ⟨_, hw.trans hw'⟩

end Served

theorem Method.ofCode_code (m : Method) : Method.ofCode m.code = some m := by
  cases m with
  | getReading r => cases r <;> rfl
  | setArr r => cases r <;> rfl
  | setFlag r => cases r <;> rfl
  | setNum r => cases r <;> rfl
  | setUnits r => cases r <;> rfl
  | _ => rfl

theorem pact_wait (E : Engine χ) (p : Nat) {r : Outcome χ} (h : r.1.Alive) :
    pact (α := γ) E n p (.work (.ret r)) = .coll (.bcast .int 1 (.ints [-1])) (fun x =>
      match x with
      | .one (.ints [c]) =>
        match Method.ofCode c with
        | some .workerBreak => .ended r.2
        | some m => .work (dispatch E n p m r.2)
        | none => .work (.ret (.ok .ok, r.2))
      | _ => .ended r.2) := by
  obtain ⟨r, s⟩ := r
  cases r with
  | ok a => rfl
  | threw => rfl
  | exited => exact absurd rfl h.1
  | ub => exact absurd rfl h.2

/-- The root broadcasts a method and the bodies of the functions finish together. -/
theorem Served.round {E : Engine χ} {ws ws' : Nat → Outcome χ} {P : Prog α} (m : Method)
    (hm : m ≠ .workerBreak) (k0 : Reply → Prog α)
    (hP : P = .coll (.bcast .int 1 (.ints [m.code])) k0)
    (B : Nat → Prog β) (f : β → Prog α) (g : Nat → β → Outcome χ) {R : Nat → β}
    (hk : k0 (.one (.ints [m.code])) = (B 0).bind f)
    (hw : ∀ p < n, p ≠ 0 → dispatch E n p m (ws p).2 = (B p).bind (fun b => .ret (g p b)))
    (ha : ∀ p < n, (ws p).1.Alive) (ht : Together n B R) {a : α}
    (hr : Served E n (f (R 0)) (fun p => g p (R p)) a ws') : Served E n P ws a ws' := by
  intro γ f' rest
  obtain ⟨w, hw1⟩ := ht.run E (fun b => (f b).bind f') g rest
  obtain ⟨w', hw2⟩ := hr γ f' rest
  refine ⟨_, Run.cons (a := .coll) trivial ?_ (hw1.trans hw2)⟩
  have st := Step.coll (act := pact E n) (n := n) (C := cfg n (P.bind f') ws rest)
    (fun p => if p = 0 then .bcast .int 1 (.ints [m.code]) else .bcast .int 1 (.ints [-1]))
    (fun p x => if p = 0 then .root ((k0 x).bind f') else
      match x with
      | .one (.ints [c]) =>
        match Method.ofCode c with
        | some .workerBreak => .ended (ws p).2
        | some m => .work (dispatch E n p m (ws p).2)
        | none => .work (.ret (.ok .ok, (ws p).2))
      | _ => .ended (ws p).2) (fun _ => .one (.ints [m.code])) (by
      intro p hp
      by_cases h0 : p = 0
      · subst h0; simp [cfg, hp, hP, Prog.bind, pact]
      · simp only [cfg, hp, h0, if_true, if_false]
        rw [pact_wait E p (ha p hp)]) (by
      simp only [meet, if_true]
      rw [if_pos]
      refine ⟨rfl, rfl, ?_⟩
      intro p _
      by_cases h0 : p = 0 <;> simp [h0, Coll.InBcast])
  have e : (⟨fun p => if p < n then (if p = 0 then PState.root ((k0 (.one (.ints [m.code]))).bind f')
        else
      match Reply.one (Val.ints [m.code]) with
      | .one (.ints [c]) =>
        match Method.ofCode c with
        | some .workerBreak => .ended (ws p).2
        | some m => .work (dispatch E n p m (ws p).2)
        | none => .work (.ret (.ok .ok, (ws p).2))
      | _ => .ended (ws p).2) else (cfg n (P.bind f') ws rest).ps p, (cfg n (P.bind f') ws rest).ch⟩ :
      Config (PState χ γ)) = emb n B (fun b => (f b).bind f') g rest := by
    unfold emb cfg
    congr 1
    funext p
    by_cases hp : p < n
    · by_cases h0 : p = 0
      · subst h0
        simp only [hp, if_true]
        rw [hk, Prog.bind_assoc]
      · simp only [hp, h0, if_true, if_false]
        rw [Method.ofCode_code]
        rw [← hw p hp h0]
        cases m <;> first | rfl | exact absurd rfl hm
    · simp [hp]
  rw [e] at st
  exact st

end Verif.Lockstep
