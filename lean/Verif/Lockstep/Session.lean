import Verif.Lockstep.Run

/-!
# Lemmas: programs of calls
-/

namespace Verif.Lockstep

open Spec

variable {n : Nat} {χ α β γ : Type} {E : Engine χ}

theorem callOk (hw : Works n E) {s : Nat → St χ} (h : Ready n s) (hn : 0 < n) {c : Call}
    (hc : Fine (s 0).sh.nxyz (s 0).sh.ncomp c) : CallOk E n c s := by
  cases c with
  | setNum k t => exact callOk_setNum h hn k t
  | setFlag f t => exact callOk_setFlag h hn f t
  | setUnits k u => exact callOk_setUnits h hn k u
  | setMode i => exact callOk_setMode h hn i hc
  | setFilePrefix t => exact callOk_setFilePrefix h hn t
  | setPrintOn w i u => exact callOk_setPrintOn h hn w i u
  | setPartitionUZ t => exact callOk_setPartitionUZ h hn t
  | setMask m => exact callOk_setMask h hn m hc
  | setArr a v => exact callOk_setArr h hn a v
  | loadDatabase t => exact callOk_loadDatabase h hn t
  | runFile w i u t => exact callOk_runFile h hn w i u t
  | runString w i u t => exact callOk_runString h hn w i u t
  | setConcentrations t => exact callOk_setConcentrations h hn t hc
  | getConcentrations => exact callOk_getConcentrations h hn
  | getSpecies => exact callOk_getSpecies h hn
  | getReading r => exact callOk_getReading h hn r
  | getErrorString => exact callOk_getErrorString h hn
  | stateSave i => exact callOk_stateSave h hn i
  | stateApply i => exact callOk_stateApply h hn i
  | stateDelete i => exact callOk_stateDelete h hn i
  | runCells => exact callOk_runCells hw h hn

/-- The root goes on, the workers have left the loop of `MpiWorker`. -/
def endCfg (n : Nat) (P : Prog γ) (s : Nat → St χ) (rest : Nat → PState χ γ) : Config (PState χ γ) :=
  ⟨fun p => if p < n then (if p = 0 then .root P else .ended (s p)) else rest p, fun _ => []⟩

/-- The program of calls is served, and what it leaves. -/
structure Sess (n : Nat) (cs : List Call) (s s' : Nat → St χ) (rs : List (Res IRM)) : Prop where
  ready : Ready n s'
  length : rs.length = cs.length
  alive : ∀ r ∈ rs, r.Alive
  set : (s' 0).sh.set = Spec.settings cs (s 0).sh.set
  arrays : ∀ a, Kept a → (s' 0).rootArr a = Spec.array (s 0).sh.nxyz a cs ((s 0).rootArr a)
  back : (s' 0).sh.back = (s 0).sh.back
  nxyz : (s' 0).sh.nxyz = (s 0).sh.nxyz
  pieces : (∀ c ∈ cs, ∀ i, c ≠ .stateApply i) → Pieces n s → Pieces n s'

theorem array_cons (nxyz : Nat) (a : Arr) (c : Call) (cs : List Call) (v : List ℚ) :
    Spec.array nxyz a (c :: cs) v = Spec.array nxyz a cs (Spec.array nxyz a [c] v) := by
  cases c <;> rfl

/-- The program of calls runs to its end and the workers leave their loop, whatever the root does
next. -/
def SessRun (E : Engine χ) (n : Nat) (cs : List Call) (s : Nat → St χ) (r0 : Nat → Res IRM)
    (rs : List (Res IRM)) (s' : Nat → St χ) : Prop :=
  ∀ (γ : Type) (g : List (Res IRM) × St χ → Prog γ) (rest : Nat → PState χ γ),
    ∃ w, Run (pact E n) n w (cfg n ((session E n cs (s 0)).bind g) (fun p => (r0 p, s p)) rest)
      (endCfg n (g (rs, s' 0)) s' rest)

theorem SessRun.nil (s : Nat → St χ) {r0 : Nat → Res IRM} (ha : ∀ p < n, (r0 p).Alive) :
    SessRun E n [] s r0 [] s := by
  intro γ g rest
  refine ⟨_, Run.cons (a := .coll) trivial ?_ (.nil _)⟩
  have st := Step.coll (act := pact E n) (n := n)
    (C := cfg n ((session E n [] (s 0)).bind g) (fun p => (r0 p, s p)) rest)
    (fun p => if p = 0 then .bcast .int 1 (.ints [Method.workerBreak.code]) else .bcast .int 1 (.ints [-1]))
    (fun p x => if p = 0 then .root (g ([], s 0)) else
      match x with
      | .one (.ints [c]) =>
        match Method.ofCode c with
        | some .workerBreak => .ended (s p)
        | some m => .work (dispatch E n p m (s p))
        | none => .work (.ret (.ok .ok, s p))
      | _ => .ended (s p)) (fun _ => .one (.ints [Method.workerBreak.code])) (by
      intro p hp
      by_cases h0 : p = 0
      · subst h0; simp [cfg, hp, session, Prog.bind, pact]
      · simp only [cfg, hp, h0, if_true, if_false]
        rw [pact_wait E p (ha p hp)]
        rfl) (by
      simp only [meet, if_true]
      rw [if_pos]
      refine ⟨rfl, rfl, ?_⟩
      intro p _
      by_cases h0 : p = 0 <;> simp [h0, Coll.InBcast])
  have e : (⟨fun p => if p < n then (if p = 0 then PState.root (g ([], s 0)) else
      match Reply.one (Val.ints [Method.workerBreak.code]) with
      | .one (.ints [c]) =>
        match Method.ofCode c with
        | some .workerBreak => .ended (s p)
        | some m => .work (dispatch E n p m (s p))
        | none => .work (.ret (.ok .ok, s p))
      | _ => .ended (s p)) else
        (cfg n ((session E n [] (s 0)).bind g) (fun p => (r0 p, s p)) rest).ps p,
      (cfg n ((session E n [] (s 0)).bind g) (fun p => (r0 p, s p)) rest).ch⟩ : Config (PState χ γ)) =
      endCfg n (g ([], s 0)) s rest := by
    unfold endCfg cfg
    congr 1
    funext p
    by_cases hp : p < n
    · by_cases h0 : p = 0
      · subst h0; simp [hp]
      · simp only [hp, h0, if_true, if_false]
        rw [Method.ofCode_code]
    · simp [hp]
  rw [e] at st
  exact st

theorem SessRun.cons {c : Call} {cs : List Call} {s s1 s' : Nat → St χ} {r0 r : Nat → Res IRM}
    {rs : List (Res IRM)} (hal : (r 0).Alive)
    (h1 : Served E n (perform E n c (s 0)) (fun p => (r0 p, s p)) (r 0, s1 0) (fun p => (r p, s1 p)))
    (h6 : SessRun E n cs s1 r rs s') : SessRun E n (c :: cs) s r0 (r 0 :: rs) s' := by
  intro γ g rest
  obtain ⟨w, hw1⟩ := h1 γ (fun r => (match r.1 with
    | .exited => .ret ([.exited], r.2)
    | .ub => .ret ([.ub], r.2)
    | x => (session E n cs r.2).bind (fun y => .ret (x :: y.1, y.2)) :
      Prog (List (Res IRM) × St χ)).bind g) rest
  obtain ⟨w', hw2⟩ := h6 γ (fun y => g (r 0 :: y.1, y.2)) rest
  refine ⟨w + w', ?_⟩
  have e1 : (session E n (c :: cs) (s 0)).bind g = (perform E n c (s 0)).bind (fun r => (match r.1 with
    | .exited => .ret ([.exited], r.2)
    | .ub => .ret ([.ub], r.2)
    | x => (session E n cs r.2).bind (fun y => .ret (x :: y.1, y.2)) :
      Prog (List (Res IRM) × St χ)).bind g) := by
    rw [session, Prog.bind_assoc]
    congr 1
  rw [e1]
  refine hw1.trans ?_
  have e2 : (match (r 0, s1 0).1 with
    | .exited => .ret ([.exited], (r 0, s1 0).2)
    | .ub => .ret ([.ub], (r 0, s1 0).2)
    | x => (session E n cs (r 0, s1 0).2).bind (fun y => .ret (x :: y.1, y.2)) :
      Prog (List (Res IRM) × St χ)).bind g =
      (session E n cs (s1 0)).bind (fun y => g (r 0 :: y.1, y.2)) := by
    cases hr : r 0 with
    | ok a => dsimp only; rw [Prog.bind_assoc]; rfl
    | threw => dsimp only; rw [Prog.bind_assoc]; rfl
    | exited => rw [hr] at hal; exact absurd rfl hal.1
    | ub => rw [hr] at hal; exact absurd rfl hal.2
  rw [e2]
  exact hw2

theorem calls_served (hw : Works n E) (hn : 0 < n) (cs : List Call) : ∀ (s : Nat → St χ), Ready n s →
    (∀ c ∈ cs, Fine (s 0).sh.nxyz (s 0).sh.ncomp c) → ∀ r0 : Nat → Res IRM, (∀ p < n, (r0 p).Alive) →
    ∃ rs s' r', Sess n cs s s' rs ∧ (∀ p < n, (r' p : Res IRM).Alive) ∧
      ∀ more rs2 s2, SessRun E n more s' r' rs2 s2 → SessRun E n (cs ++ more) s r0 (rs ++ rs2) s2 := by
  induction cs with
  | nil =>
    intro s h _ r0 ha
    exact ⟨[], s, r0, ⟨h, rfl, by simp, rfl, fun _ _ => rfl, rfl, rfl, fun _ hp => hp⟩, ha, fun _ _ _ h => h⟩
  | cons c cs ih =>
    intro s h hc r0 ha
    obtain ⟨r, s1, h1, h2, h3, h4⟩ := callOk hw h hn (hc c (by simp)) r0 ha
    obtain ⟨rs, s', r', h5, ha', h6⟩ := ih s1 h3 (by
      intro d hd
      rw [h4.nxyz, h4.ncomp]
      exact hc d (by simp [hd])) r h2
    refine ⟨r 0 :: rs, s', r', ⟨h5.ready, by simp [h5.length], ?_, ?_, ?_, ?_, ?_, ?_⟩, ha', ?_⟩
    · intro x hx
      rcases List.mem_cons.1 hx with rfl | hx
      · exact h2 0 hn
      · exact h5.alive x hx
    · rw [h5.set, h4.set]; rfl
    · intro a ha
      rw [h5.arrays a ha, h4.arrays a ha, h4.nxyz, ← array_cons]
    · rw [h5.back, h4.back]
    · rw [h5.nxyz, h4.nxyz]
    · intro hns hp
      exact h5.pieces (fun d hd => hns d (by simp [hd])) (h4.pieces (hns c (by simp)) hp)
    · intro more rs2 s2 hm
      exact SessRun.cons (h2 0 hn) h1 (h6 more rs2 s2 hm)

/-- The processes when the program of the user has ended and the workers have left their loop. -/
def done (_ : Engine χ) (n : Nat) (s s' : Nat → St χ) (rs : List (Res IRM)) :
    Config (PState χ (List (Res IRM) × St χ)) :=
  endCfg n (.ret (rs, s' 0)) s' (fun p => if p = 0 then .root (.ret (rs, s' 0)) else .work (.ret (.ok .ok, s p)))

theorem done_final (s s' : Nat → St χ) (rs : List (Res IRM)) :
    Final (pact E n) n (done E n s s' rs) := by
  refine ⟨?_, fun _ => rfl⟩
  intro p hp
  by_cases h0 : p = 0
  · subst h0; simp [done, endCfg, hp, pact]
  · simp [done, endCfg, hp, h0, pact]

theorem start_eq (hn : 0 < n) (cs : List Call) (s : Nat → St χ) (x : Prog (List (Res IRM) × St χ)) :
    start E n cs s = cfg n (session E n cs (s 0)) (fun p => (.ok .ok, s p))
      (fun p => if p = 0 then .root x else .work (.ret (.ok .ok, s p))) := by
  unfold start cfg
  congr 1
  funext p
  by_cases h0 : p = 0
  · subst h0; simp [hn]
  · simp [h0]

theorem SessRun.start (hn : 0 < n) {cs : List Call} {s s' : Nat → St χ} {rs : List (Res IRM)}
    (h2 : SessRun E n cs s (fun _ => .ok .ok) rs s') :
    ∃ w, Run (pact E n) n w (start E n cs s) (done E n s s' rs) := by
  obtain ⟨w, h3⟩ := h2 _ .ret (fun p => if p = 0 then .root (.ret (rs, s' 0)) else .work (.ret (.ok .ok, s p)))
  rw [Prog.bind_ret, ← start_eq hn] at h3
  exact ⟨w, h3⟩

theorem session_run (hw : Works n E) (hn : 0 < n) (cs : List Call) (s : Nat → St χ) (h : Ready n s)
    (hc : ∀ c ∈ cs, Fine (s 0).sh.nxyz (s 0).sh.ncomp c) :
    ∃ rs s' w, Sess n cs s s' rs ∧ Run (pact E n) n w (start E n cs s) (done E n s s' rs) := by
  obtain ⟨rs, s', r', h1, ha, h2⟩ := calls_served hw hn cs s h hc (fun _ => .ok .ok) (fun _ _ => alive_ok _)
  have := h2 [] [] s' (SessRun.nil s' ha)
  rw [List.append_nil, List.append_nil] at this
  obtain ⟨w, h3⟩ := this.start hn
  exact ⟨rs, s', w, h1, h3⟩

end Verif.Lockstep
