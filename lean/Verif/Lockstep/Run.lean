import Verif.Lockstep.Moves

/-!
# Lemmas: RunCells
-/

namespace Verif.Lockstep

open Spec

variable {n : Nat} {χ α β σ : Type} {E : Engine χ}

theorem fin_rebalanceLoad (hw : Works n E) {s : Nat → St χ} (h : Ready n s) (hn : 0 < n) :
    Fin' n (fun p => rebalanceLoad E p n) s (fun _ s' => Moved n s s') (fun s' => Moved n s s') := by
  unfold rebalanceLoad
  refine Fin'.get_bind ?_
  have hself : Moved n s s := Moved.soft h hn (fun p _ => Soft.refl _)
  by_cases hc : n ≤ 1 ∨ (s 0).sh.back.length < n ∨ (s 0).sh.set.nums .rebalanceFraction ≤ 0
  · refine Fin'.congr (s := s) (m := fun p => M.pure ()) (Fin'.pure (a := fun _ => ()) hself) ?_
    intro p hp
    rw [h.agree p hp, if_pos hc]
    rfl
  by_cases hb : (s 0).sh.set.flags .rebalanceByCell = true
  · let mine : Nat → Nat → List ℚ := fun p q => (List.range ((s 0).sh.count q)).map (fun l =>
      E.cellTime (s p).chem ((s 0).sh.start q + l))
    refine Fin'.congr (s := s) (m := fun p =>
      M.bind (M.modify (fun s => { s with out := mine p 0 })) (fun _ =>
      M.bind (M.loop ((List.range n).drop 1) (fun i =>
        if p = i then M.send 0 (.dbls (mine p i))
        else if p = 0 then M.bind (M.recv i .dbl ((s 0).sh.count i)) (fun v =>
          M.modify (fun s => { s with out := s.out ++ (match v with | .dbls d => d | _ => []) }))
        else M.pure ())) (fun _ =>
      M.bind M.get (fun s => M.bind (bcastRanges p n (E.balanceCells n s.sh s.out)) (fun new =>
        redistribute E p new))))) ?_ ?_
    · refine Fin'.modify_bind ?_
      refine Fin'.bind (fin_collect hn _ mine (fun _ i => (s 0).sh.count i) (fun i hi => by simp [mine])) ?_
      intro _ s1 h1
      have hk : ∀ p < n, Soft (s p) (s1 p) := fun p _ =>
        Soft.trans (s1 := ({ s p with out := mine p 0 } : St χ))
          ⟨rfl, fun _ _ => rfl, fun _ _ => rfl, rfl, rfl, rfl, rfl⟩ (h1 p).soft
      have hr1 := ready_soft h hn hk
      refine Fin'.get_bind ?_
      have hd := hw.cells (s1 0).sh (s1 0).out
      refine Fin'.bind (fin_bcastRanges (fun p => E.balanceCells n (s1 p).sh (s1 p).out) hn hd.1 s1) ?_
      rintro _ _ ⟨rfl, rfl⟩
      exact (fin_redistribute hw hr1 hn _ hd).mono
        (fun _ s' k => (Moved.soft h hn hk).trans hn k) (fun _ k => k)
    · intro p hp
      rw [h.agree p hp, if_neg hc, if_pos hb]
      rfl
  · refine Fin'.congr (s := s) (m := fun p =>
      M.bind (M.gatherDbl (E.threadTime (s p).chem)) (fun times =>
      M.bind (M.bcastInt (if p = 0 then (if (if p = 0 then E.balanceTasks n (s 0).sh times else
        none).isSome = true then 0 else IRM.fail.toInt) else 0)) (fun r =>
      if r = 0 then
        M.bind (bcastRanges p n ((if p = 0 then E.balanceTasks n (s 0).sh times else none).getD []))
          (fun new => redistribute E p new)
      else M.throw))) ?_ ?_
    · refine Fin'.bind (Q := fun a s1 => s = s1) (Fin'.of_tog (Tog.gatherDbl _) rfl) ?_
      rintro a _ rfl
      refine Fin'.bind (Q := fun b s1 => (b = fun _ => if (E.balanceTasks n (s 0).sh (a 0)).isSome = true
        then 0 else IRM.fail.toInt) ∧ s = s1) (Fin'.of_tog (Tog.bcastInt _) ⟨by simp, rfl⟩) ?_
      rintro _ _ ⟨rfl, rfl⟩
      cases hb2 : E.balanceTasks n (s 0).sh (a 0) with
      | none =>
        refine Fin'.congr (s := s) (m := fun p => M.throw) (Fin'.throw hself) ?_
        intro p hp
        rfl
      | some new =>
        have hd := hw.tasks _ _ _ hb2
        refine Fin'.congr (s := s) (m := fun p => M.bind (bcastRanges p n
          ((if p = 0 then E.balanceTasks n (s 0).sh (a p) else none).getD []))
          (fun new => redistribute E p new)) ?_ ?_
        · refine Fin'.bind (fin_bcastRanges _ hn ?_ s) ?_
          · rw [if_pos rfl, hb2]; exact hd.1
          · rintro _ _ ⟨rfl, rfl⟩
            rw [if_pos rfl, hb2]
            exact fin_redistribute hw h hn _ hd
        · intro p hp
          rfl
    · intro p hp
      rw [h.agree p hp, if_neg hc, if_neg hb]
      rfl

theorem fin_collectOutput (hn : 0 < n) (s : Nat → St χ) (ha : ∀ p < n, (s p).sh = (s 0).sh)
    (text : Nat → List Char) {T : (Nat → St χ) → Prop} :
    Fin' n (fun p => collectOutput p n (text p)) s (fun _ s' => s' = s) T := by
  unfold collectOutput
  refine Fin'.get_bind ?_
  by_cases hu : (s 0).sh.set.printOn.1 = true
  · refine Fin'.congr (s := s) (m := fun p => M.loop (List.range n) (fun i =>
      if p = i then
        if i = 0 then M.pure ()
        else M.bind (M.send 0 (.ints [((text p).length : Int)])) (fun _ => M.send 0 (.chars (text p)))
      else if p = 0 then M.bind (M.recv i .int 1) (fun v =>
        M.bind (M.recv i .chr (match v with | .ints (a :: _) => a | _ => 0 : Int).toNat) (fun _ =>
        M.pure ()))
      else M.pure ())) ?_ ?_
    · refine Fin'.loop (I := fun s' => s' = s) _ ?_ s rfl
      rintro i hi _ rfl
      rename_i s
      have hin : i < n := List.mem_range.1 hi
      by_cases h0 : i = 0
      · subst h0
        refine .ok (fun _ => ()) s (Tog.loc ?_) rfl
        intro p _
        by_cases hp : p = 0
        · subst hp; rfl
        · rw [if_neg hp, if_neg hp]; rfl
      · have h0' : 0 ≠ i := fun h => h0 h.symm
        refine .ok (fun _ => ()) s ?_ rfl
        refine Together.exchange (p := i) (q := 0) (v := .ints [((text i).length : Int)]) (ty := .int)
          (c := 1) hin hn (k := M.send 0 (.chars (text i)) (s i))
          (k' := fun v => (M.bind (M.recv i .chr (match v with | .ints (a :: _) => a | _ => 0 : Int).toNat)
            (fun _ => M.pure ()) : M (St χ) Unit) (s 0)) ?_ ?_ ⟨rfl, by simp [Val.len]⟩ ?_
        · dsimp only; rw [if_pos rfl, if_neg h0]; rfl
        · dsimp only; rw [if_neg h0', if_pos rfl]; rfl
        · refine Together.exchange (p := i) (q := 0) (v := .chars (text i)) (ty := .chr)
            (c := (text i).length) hin hn (k := .ret (.ok (), s i)) (k' := fun _ => .ret (.ok (), s 0))
            ?_ ?_ ⟨rfl, by simp [Val.len]⟩ (.ret ?_)
          · simp only [if_pos]; rfl
          · simp only [if_neg h0', if_pos]; rfl
          · intro p _
            by_cases hpi : p = i
            · subst hpi; simp only [if_pos]
            · by_cases hp : p = 0
              · subst hp; simp only [if_neg h0', if_pos]
              · simp only [if_neg hpi, if_neg hp]; rfl
    · intro p hp
      rw [if_pos (by rw [ha p hp]; exact hu)]
      rfl
  · refine Fin'.congr (s := s) (m := fun p => M.pure ()) (Fin'.pure (a := fun _ => ()) rfl) ?_
    intro p hp
    rw [if_neg (by rw [ha p hp]; exact hu)]
    rfl

/-- `RunCells` after the broadcast of the method, to before the last part of the root. -/
def runCellsBody (E : Engine χ) (n p : Nat) : M (St χ) Phase :=
  M.bind M.get (fun s => M.bind (if s.sh.check = true then
      M.bind (M.modify (fun s => { s with sh := { s.sh with check := false } })) (fun _ =>
      M.tryCatch (M.bind (checkCells E p n) (fun _ => M.pure true)) (M.bind M.barrier (fun _ => M.pure false)))
    else M.pure true) (fun ok =>
  if ok = true then M.bind M.get (fun s =>
    M.bind (M.modify (fun s' => { s' with chem := (E.runCells p s).1 })) (fun _ =>
    M.bind (M.modify (fun s => if s.sh.set.partUZ = true then
      { s with oldSatWork := s.workArr .saturation
               oldSatRoot := if p = 0 then s.rootArr .saturation else s.oldSatRoot } else s)) (fun _ =>
    M.bind (collectOutput p n (E.runCells p s).2.2) (fun _ =>
    M.bind (M.tryCatch (M.bind (handleErrors E p n (E.runCells p s).2.1) (fun _ =>
        M.bind (rebalanceLoad E p n) (fun _ => M.bind M.barrier (fun _ => M.pure IRM.ok)))) (M.pure .fail))
      (fun c => M.pure (.late c))))))
  else M.pure .early))

theorem runCellsPart_worker {p : Nat} (h0 : p ≠ 0) (s : St χ) :
    runCellsPart E p n s = runCellsBody E n p s.clear := tell_worker h0 _ _ _

/-- The cells of the process are defined. -/
def definedIn (E : Engine χ) (s : St χ) (p : Nat) : Prop :=
  E.defined s.chem (s.sh.start p) (s.sh.start p + s.sh.count p) = true

theorem fin_runCells (hw : Works n E) {s : Nat → St χ} (h : Ready n s) (hn : 0 < n) :
    Fin' n (fun p => runCellsBody E n p) s (fun a s' => (∃ c, (a = fun _ => c) ∧
      ((s 0).sh.check = false → (∃ p < n, (E.runCells p (s p)).2.1 ≠ 0) → c = .late .fail) ∧
      ((s 0).sh.check = true → (∃ p < n, ¬ definedIn E (s p) p) → c = .early)) ∧ Moved n s s')
      (fun _ => False) := by
  unfold runCellsBody
  refine Fin'.get_bind ?_
  have hself : Moved n s s := Moved.soft h hn (fun p _ => Soft.refl _)
  refine Fin'.bind (Q := fun a s1 => (∃ c, (a = fun _ => c) ∧ ((s 0).sh.check = false → c = true ∧ s1 = s) ∧
    ((s 0).sh.check = true → (∃ p < n, ¬ definedIn E (s p) p) → c = false)) ∧ Moved n s s1) ?_ ?_
  · by_cases hc : (s 0).sh.check = true
    · refine Fin'.congr (s := s) (m := fun p =>
        M.bind (M.modify (fun s => { s with sh := { s.sh with check := false } })) (fun _ =>
        M.tryCatch (M.bind (checkCells E p n) (fun _ => M.pure true))
          (M.bind M.barrier (fun _ => M.pure false)))) ?_ ?_
      · refine Fin'.modify_bind ?_
        have hmv : Moved n s (fun p => ({ s p with sh := { (s p).sh with check := false } } : St χ)) := by
          refine ⟨⟨(s 0).sh.cells, false, h.divides, ?_⟩, fun _ _ => rfl, rfl, fun _ _ => rfl, h.oldSat,
            fun hp => hp⟩
          intro p hp
          dsimp only
          rw [h.agree p hp]
        have hr := ready_moved h hn hmv
        refine Fin'.handle (T := fun s1 => Moved n s s1) ?_ ?_
        · unfold checkCells
          refine Fin'.bind (Q := fun _ s1 => (∀ p < n, definedIn E (s p) p) ∧ Moved n s s1) ?_
            (fun _ s1 h1 => Fin'.pure (a := fun _ => true) ⟨⟨true, rfl, fun hf => ?_, fun _ ⟨p, hp, h3⟩ =>
              absurd (h1.1 p hp) h3⟩, h1.2⟩)
          rotate_left
          · rw [hc] at hf; exact absurd hf (by decide)
          refine Fin'.get_bind ?_
          exact (fin_handleErrors hn _ _).mono
            (fun _ s1 k => ⟨fun p hp => by
                have : (if E.defined (s p).chem ((s p).sh.start p) ((s p).sh.start p + (s p).sh.count p) = true
                  then (0 : Int) else IRM.fail.toInt) = 0 := k.1 p hp
                unfold definedIn
                by_contra hne
                rw [if_neg hne] at this
                revert this; decide,
              hmv.trans hn (Moved.soft hr hn (fun p _ => (k.2 p).soft))⟩)
            (fun s1 k => hmv.trans hn (Moved.soft hr hn (fun p _ => (k.2 p).soft)))
        · intro s1 h1
          refine Fin'.bind (Q := fun _ s2 => s1 = s2) (Fin'.of_tog (a := fun _ => ()) Tog.barrier rfl) ?_
          rintro _ _ rfl
          exact Fin'.pure (a := fun _ => false) ⟨⟨false, rfl, fun hf => by
            rw [hc] at hf; exact absurd hf (by decide), fun _ _ => rfl⟩, h1⟩
      · intro p hp
        rw [if_pos (by rw [h.agree p hp]; exact hc)]
    · refine Fin'.congr (s := s) (m := fun p => M.pure true)
        (Fin'.pure (a := fun _ => true) ⟨⟨true, rfl, fun _ => ⟨rfl, rfl⟩, fun h => absurd h hc⟩, hself⟩) ?_
      intro p hp
      rw [if_neg (by rw [h.agree p hp]; exact hc)]
  · rintro _ s1 ⟨⟨ok, rfl, hv1, hv2⟩, h1⟩
    have hr1 := ready_moved h hn h1
    cases ok with
    | false => exact Fin'.pure (a := fun _ => Phase.early) ⟨⟨.early, rfl, fun hf => absurd (hv1 hf).1 (by decide),
        fun _ _ => rfl⟩, h1⟩
    | true =>
      simp only [if_true]
      refine Fin'.get_bind (Fin'.modify_bind (Fin'.modify_bind ?_))
      let s2 : Nat → St χ := fun p => if (s1 p).sh.set.partUZ = true then
        { s1 p with
          chem := (E.runCells p (s1 p)).1
          oldSatWork := (s1 p).workArr .saturation
          oldSatRoot := if p = 0 then (s1 p).rootArr .saturation else (s1 p).oldSatRoot } else
        { s1 p with chem := (E.runCells p (s1 p)).1 }
      have e2 : ∀ p, (s2 p).sh = (s1 p).sh := by
        intro p
        simp only [s2]
        split <;> rfl
      have e3 : ∀ p, (s2 p).rootArr = (s1 p).rootArr ∧ (s2 p).workArr = (s1 p).workArr ∧
          (s2 p).maskRoot = (s1 p).maskRoot ∧ (s2 p).maskWork = (s1 p).maskWork ∧
          (s2 p).saved = (s1 p).saved := by
        intro p
        simp only [s2]
        split <;> exact ⟨rfl, rfl, rfl, rfl, rfl⟩
      have h2 : Moved n s1 s2 := by
        refine ⟨⟨(s1 0).sh.cells, (s1 0).sh.check, hr1.divides, ?_⟩, ?_, (e3 0).2.2.1,
          fun p _ => (e3 p).2.2.2.2, ?_, ?_⟩
        · intro p hp; rw [e2, hr1.agree p hp]
        · intro a _; rw [(e3 0).1]
        · intro hu
          simp only [s2, if_pos hu, if_true]
          exact hr1.arrays .saturation ⟨nofun, nofun⟩
        · intro hp p hpn
          rw [e2, (e3 0).1, (e3 p).2.1, (e3 0).2.2.1, (e3 p).2.2.2.1]
          exact hp p hpn
      have hr2 := ready_moved hr1 hn h2
      refine Fin'.congr (s := s2) (m := fun p =>
        M.bind (collectOutput p n (E.runCells p (s1 p)).2.2) (fun _ =>
        M.bind (M.tryCatch (M.bind (handleErrors E p n (E.runCells p (s1 p)).2.1) (fun _ =>
          M.bind (rebalanceLoad E p n) (fun _ => M.bind M.barrier (fun _ => M.pure IRM.ok)))) (M.pure .fail))
        (fun c => M.pure (.late c)))) ?_ ?_
      · refine Fin'.bind (fin_collectOutput hn s2 hr2.agree _) ?_
        rintro _ _ rfl
        refine Fin'.bind (Q := fun a s3 => (∃ c, (a = fun _ => c) ∧
          ((∃ p < n, (E.runCells p (s1 p)).2.1 ≠ 0) → c = IRM.fail)) ∧ Moved n s s3) ?_ ?_
        · refine Fin'.handle (T := fun s3 => Moved n s s3) ?_ ?_
          · refine Fin'.bind ((fin_handleErrors hn _ _).mono (fun _ _ k => k)
              (fun s3 k => (h1.trans hn h2).trans hn (Moved.soft hr2 hn (fun p _ => (k.2 p).soft)))) ?_
            intro _ s3 k
            have h3 := (h1.trans hn h2).trans hn (Moved.soft hr2 hn (fun p _ => (k.2 p).soft))
            have hr3 := ready_moved h hn h3
            refine Fin'.bind ((fin_rebalanceLoad hw hr3 hn).mono (fun _ _ k => h3.trans hn k)
              (fun _ k => h3.trans hn k)) ?_
            intro _ s4 h4
            refine Fin'.bind (Q := fun _ s5 => s4 = s5) (Fin'.of_tog (a := fun _ => ()) Tog.barrier rfl) ?_
            rintro _ _ rfl
            exact Fin'.pure (a := fun _ => IRM.ok) ⟨⟨.ok, rfl, fun ⟨p, hp, h5⟩ => absurd (k.1 p hp) h5⟩, h4⟩
          · intro s3 h3
            exact Fin'.pure (a := fun _ => IRM.fail) ⟨⟨.fail, rfl, fun _ => rfl⟩, h3⟩
        · rintro _ s3 ⟨⟨c, rfl, hc⟩, h3⟩
          refine Fin'.pure (a := fun _ => Phase.late c) ⟨⟨.late c, rfl, ?_, ?_⟩, h3⟩
          · intro hf he
            rw [(hv1 hf).2] at hc
            rw [hc he]
          · intro ht he
            exact absurd (hv2 ht he) (by decide)
      · intro p hp
        simp only [s2]

/-- The worker's result of `RunCells`. -/
def closeWorker (_ : Nat) (ph : Res Phase × St χ) : Outcome χ :=
  match ph.1 with
  | .ok .early => if ph.2.sh.set.mode = 1 then (.threw, ph.2) else if ph.2.sh.set.mode = 2 then
      (.exited, ph.2) else (.ok .fail, ph.2)
  | .ok (.late c) => if c = .ok then (.ok c, ph.2) else if ph.2.sh.set.mode = 1 then (.threw, ph.2)
      else if ph.2.sh.set.mode = 2 then (.exited, ph.2) else (.ok c, ph.2)
  | .threw => (.threw, ph.2)
  | .exited => (.exited, ph.2)
  | .ub => (.ub, ph.2)

theorem Served.told {ws : Nat → Outcome χ} {s1 s' : Nat → St χ} {P : Prog (Outcome χ)} (m : Method)
    (hm : m ≠ .workerBreak) (G : Nat → M (St χ) IRM) (hp : Tells m P (G 0 (s1 0)))
    (hw : ∀ p < n, p ≠ 0 → dispatch E n p m (ws p).2 = G p (s1 p))
    (ha : ∀ p < n, (ws p).1.Alive)
    {r : Nat → Res IRM} (ht : Tog n G s1 r s') :
    Served E n P ws (r 0, s' 0) (fun p => (r p, s' p)) := by
  obtain ⟨k0, h1, h2⟩ := hp
  refine Served.round (β := Outcome χ) m hm k0 h1 (fun p => G p (s1 p)) .ret (fun _ b => b)
    (R := fun p => (r p, s' p)) (h2.trans (Prog.bind_ret _).symm) ?_ ha ht (Served.ret _)
  intro p hp h0
  rw [hw p hp h0]
  exact (Prog.bind_ret _).symm

theorem returnHandler_eq (c : IRM) (s : St χ) : returnHandler c s = .ret (if c = .ok then (.ok c, s)
    else if s.sh.set.mode = 1 then (.threw, s) else if s.sh.set.mode = 2 then (.exited, s)
    else (.ok c, s)) := by
  unfold returnHandler
  by_cases hc : c = .ok
  · rw [if_pos hc, if_pos hc]; rfl
  · rw [if_neg hc, if_neg hc]
    show (if s.sh.set.mode = 1 then M.throw else if s.sh.set.mode = 2 then M.exit else M.pure c :
      M (St χ) IRM) s = _
    split
    · rfl
    · split <;> rfl

/-- The root's last part of `RunCells`. -/
def finishRoot (E : Engine χ) (n : Nat) (c : IRM) : M (St χ) IRM :=
  M.bind (getConcentrations E 0) (fun _ => M.bind M.get (fun s =>
    if s.sh.set.flags .speciesSaveOn = true then
      M.bind (getSpecies E 0 n) (fun _ => returnHandler c)
    else returnHandler c))

theorem served_getConc {s : Nat → St χ} (h : Ready n s) (hn : 0 < n) {r0 : Nat → Res IRM}
    (ha : ∀ p < n, (r0 p).Alive) :
    ∃ s' : Nat → St χ, Served E n (getConcentrations E 0 (s 0)) (fun p => (r0 p, s p)) (.ok .ok, s' 0)
      (fun p => (.ok .ok, s' p)) ∧ ∀ p < n, Soft (s p) (s' p) := by
  cases fin_getConc (E := E) (lay_soft (lay_of_ready h) hn (fun p _ => Soft.clear (s p))) with
  | ok a s' ht q =>
    obtain ⟨rfl, q2⟩ := q
    refine ⟨s', Served.told .getConcentrations nofun (getConcBody E) (s1 := fun p => (s p).clear)
      ⟨_, rfl, rfl⟩ (fun p _ h0 => dispatch_getConc h0 _) ha ht, ?_⟩
    intro p hp
    exact (Soft.clear _).trans (q2 p hp).soft
  | threw s' ht q => exact q.elim

theorem served_getSpecies {s : Nat → St χ} (h : Ready n s) (hn : 0 < n) {r0 : Nat → Res IRM}
    (ha : ∀ p < n, (r0 p).Alive) :
    ∃ s' : Nat → St χ, Served E n (getSpecies E 0 n (s 0)) (fun p => (r0 p, s p)) (.ok .ok, s' 0)
      (fun p => (.ok .ok, s' p)) ∧ ∀ p < n, Soft (s p) (s' p) := by
  cases fin_getSpecies (E := E) (lay_soft (lay_of_ready h) hn (fun p _ => Soft.clear (s p))) hn with
  | ok a s' ht q =>
    obtain ⟨rfl, q2⟩ := q
    refine ⟨s', Served.told .getSpecies nofun (getSpeciesBody E n) (s1 := fun p => (s p).clear)
      ⟨_, rfl, rfl⟩ (fun p _ h0 => dispatch_getSpecies h0 _) ha ht, ?_⟩
    intro p hp
    exact (Soft.clear _).trans (q2 p hp).soft
  | threw s' ht q => exact q.elim

/-- Running `m` in the root, then `f`. -/
theorem Served.bindM {m : M (St χ) α} {f : α → M (St χ) β} {s s1 : St χ} {a : α} {x : Res β × St χ}
    {ws ws1 ws' : Nat → Outcome χ} (h : Served E n (m s) ws (.ok a, s1) ws1)
    (h' : Served E n (f a s1) ws1 x ws') : Served E n (M.bind m f s) ws x ws' := by
  unfold M.bind
  exact Served.bind h h'

theorem served_return {s : Nat → St χ} (h : Ready n s) (c : IRM) {r0 : Nat → Res IRM}
    (ha : ∀ p < n, (r0 p).Alive) (_ : 0 < n) :
    ∃ r : Nat → Res IRM, Served E n (returnHandler c (s 0)) (fun p => (r0 p, s p)) (r 0, s 0)
      (fun p => (r p, s p)) ∧ (∀ p < n, (r p).Alive) ∧
      (r 0 = if c = .ok then .ok c else if (s 0).sh.set.mode = 1 then .threw else .ok c) := by
  obtain ⟨x, h1, h2⟩ := returnHandler_ret (s := s 0) c h.mode
  refine ⟨fun p => if p = 0 then x else r0 p, ?_, ?_, ?_⟩
  · rw [h1]
    intro γ f rest
    refine ⟨0, ?_⟩
    have : cfg n ((Prog.ret (x, s 0)).bind f) (fun p => (r0 p, s p)) rest =
        cfg n (f (if 0 = 0 then x else r0 0, s 0)) (fun p => (if p = 0 then x else r0 p, s p)) rest := by
      unfold cfg
      congr 1
      funext p
      by_cases hp : p < n
      · by_cases hp0 : p = 0
        · subst hp0; simp [hp, Prog.bind]
        · simp [hp, hp0]
      · simp [hp]
    rw [this]
    exact .nil _
  · intro p hp
    by_cases hp0 : p = 0
    · simp only [if_pos hp0]; exact h2
    · simp only [if_neg hp0]; exact ha p hp
  · have := returnHandler_eq c (s 0)
    rw [h1] at this
    have hm : (s 0).sh.set.mode ≠ 2 := by rcases h.mode with h | h <;> rw [h] <;> decide
    rw [if_neg hm] at this
    simp only [if_true]
    have := congrArg (fun p => match p with | Prog.ret x => some x.1 | _ => none) this
    simp only [Option.some.injEq] at this
    rw [this]
    split
    · rfl
    · split <;> rfl

theorem served_finish {s : Nat → St χ} (h : Ready n s) (hn : 0 < n) (c : IRM) {r0 : Nat → Res IRM}
    (ha : ∀ p < n, (r0 p).Alive) :
    ∃ (r : Nat → Res IRM) (s' : Nat → St χ), Served E n (finishRoot E n c (s 0)) (fun p => (r0 p, s p))
      (r 0, s' 0) (fun p => (r p, s' p)) ∧ (∀ p < n, (r p).Alive) ∧ (∀ p < n, Soft (s p) (s' p)) ∧
      (r 0 = if c = .ok then .ok c else if (s 0).sh.set.mode = 1 then .threw else .ok c) := by
  obtain ⟨s1, h1, k1⟩ := served_getConc (E := E) h hn ha
  have hr1 := ready_soft h hn k1
  have hm : (s1 0).sh.set.mode = (s 0).sh.set.mode := by rw [(k1 0 hn).sh]
  by_cases hf : (s1 0).sh.set.flags .speciesSaveOn = true
  · obtain ⟨s2, h2, k2⟩ := served_getSpecies (E := E) hr1 hn (r0 := fun _ => .ok .ok) (fun _ _ => alive_ok _)
    have hr2 := ready_soft hr1 hn k2
    have hm2 : (s2 0).sh.set.mode = (s 0).sh.set.mode := by rw [(k2 0 hn).sh, hm]
    obtain ⟨r, h3, h4, h5⟩ := served_return (E := E) hr2 c (r0 := fun _ => .ok .ok)
      (fun _ _ => alive_ok _) hn
    refine ⟨r, s2, Served.bindM h1 ?_, h4, fun p hp => (k1 p hp).trans (k2 p hp), by rw [h5, hm2]⟩
    show Served E n ((if (s1 0).sh.set.flags .speciesSaveOn = true then
      M.bind (getSpecies E 0 n) (fun _ => returnHandler c) else returnHandler c : M (St χ) IRM) (s1 0)) _ _ _
    rw [if_pos hf]
    exact Served.bindM h2 h3
  · obtain ⟨r, h3, h4, h5⟩ := served_return (E := E) hr1 c (r0 := fun _ => .ok .ok)
      (fun _ _ => alive_ok _) hn
    refine ⟨r, s1, Served.bindM h1 ?_, h4, k1, by rw [h5, hm]⟩
    show Served E n ((if (s1 0).sh.set.flags .speciesSaveOn = true then
      M.bind (getSpecies E 0 n) (fun _ => returnHandler c) else returnHandler c : M (St χ) IRM) (s1 0)) _ _ _
    rw [if_neg hf]
    exact h3

theorem verdict_runCells (hw : Works n E) {s : Nat → St χ} (h : Ready n s) (hn : 0 < n)
    (r0 : Nat → Res IRM) (ha : ∀ p < n, (r0 p).Alive) : ∃ (r : Nat → Res IRM) (s' : Nat → St χ),
    Served E n (perform E n .runCells (s 0)) (fun p => (r0 p, s p)) (r 0, s' 0) (fun p => (r p, s' p)) ∧
    (∀ p < n, (r p).Alive) ∧ Ready n s' ∧ Post n .runCells s s' ∧
    ((s 0).sh.check = false → (∃ p < n, (E.runCells p { s p with errs := [] }).2.1 ≠ 0) → r 0 ≠ .ok .ok) ∧
    ((s 0).sh.check = true → (∃ p < n, ¬ definedIn E (s p) p) → r 0 ≠ .ok .ok) := by
  have hkc : ∀ p < n, Soft (s p) ((s p).clear) := fun p _ => Soft.clear (s p)
  have hr1 : Ready n (fun p => (s p).clear) := ready_soft h hn hkc
  cases fin_runCells hw hr1 hn with
  | threw s' ht q => exact q.elim
  | ok a s' ht q =>
    obtain ⟨⟨ph, rfl, v1, v2⟩, q2⟩ := q
    have hmv : Moved n s s' := (Moved.soft h hn hkc).trans hn q2
    have hr' := ready_moved h hn hmv
    have hm : ∀ p < n, (s' p).sh.set.mode = 0 ∨ (s' p).sh.set.mode = 1 := by
      intro p hp; rw [hr'.agree p hp]; exact hr'.mode
    let f : Res Phase × St χ → Prog (Outcome χ) := fun r => match r.1 with
      | .ok .early => returnHandler .fail r.2
      | .ok (.late c) => finishRoot E n c r.2
      | .threw => .ret (.threw, r.2)
      | .exited => .ret (.exited, r.2)
      | .ub => .ret (.ub, r.2)
    have halive : ∀ p < n, (closeWorker p (.ok ph, s' p)).1.Alive := by
      intro p hp
      cases ph with
      | early =>
        rcases hm p hp with hm | hm
        · simp only [closeWorker, hm]; exact alive_ok _
        · simp only [closeWorker, hm]; exact alive_threw
      | late c =>
        simp only [closeWorker]
        split
        · exact alive_ok _
        · rcases hm p hp with hm | hm
          · rw [hm]; exact alive_ok _
          · rw [hm]; exact alive_threw
    have hws : (fun p => closeWorker p (.ok ph, s' p)) =
        fun p => ((closeWorker p (.ok ph, s' p)).1, s' p) := by
      funext p
      cases ph with
      | early => simp only [closeWorker]; split <;> [rfl; (split <;> rfl)]
      | late c => simp only [closeWorker]; split <;> [rfl; (split <;> [rfl; (split <;> rfl)])]
    have hround : ∀ x ws', Served E n (f (.ok ph, s' 0)) (fun p => closeWorker p (.ok ph, s' p)) x ws' →
        Served E n (perform E n .runCells (s 0)) (fun p => (r0 p, s p)) x ws' := by
      intro x ws' hx
      refine Served.round (β := Res Phase × St χ) .runCells nofun _ rfl
        (fun p => runCellsBody E n p (s p).clear) f closeWorker
        (R := fun p => (.ok ph, s' p)) ?_ ?_ ha ht hx
      · show (runCellsBody E n 0 (s 0).clear).bind _ = _
        congr 1
        funext b
        obtain ⟨b1, b2⟩ := b
        cases b1 with
        | ok ph => cases ph <;> rfl
        | _ => rfl
      · intro p hp h0
        show M.bind (runCellsPart E p n) _ (s p) = _
        unfold M.bind
        rw [runCellsPart_worker h0]
        congr 1
        funext b
        obtain ⟨b1, b2⟩ := b
        cases b1 with
        | ok ph =>
          cases ph with
          | early =>
            simp only [closeWorker]
            rw [returnHandler_eq, if_neg (by decide)]
          | late c =>
            simp only [closeWorker, if_neg h0]
            rw [returnHandler_eq]
        | _ => rfl
    cases ph with
    | early =>
      obtain ⟨r, h3, h4, h5⟩ := served_return (E := E) hr' .fail halive hn
      rw [← hws] at h3
      have hne : r 0 ≠ .ok .ok := by
        rw [h5, if_neg (by decide)]
        split <;> nofun
      exact ⟨r, s', hround _ _ h3, h4, hr', post_moved hn hmv, fun _ _ => hne, fun _ _ => hne⟩
    | late c =>
      obtain ⟨r, s2, h3, h4, h5, h6⟩ := served_finish (E := E) hr' hn c halive
      rw [← hws] at h3
      have hmv2 := hmv.trans hn (Moved.soft hr' hn h5)
      refine ⟨r, s2, hround _ _ h3, h4, ready_moved h hn hmv2, post_moved hn hmv2, ?_, ?_⟩
      · intro hf he
        have := v1 hf he
        cases this
        rw [h6, if_neg (by decide)]
        split <;> nofun
      · intro ht he
        exact absurd (v2 ht he) nofun

theorem callOk_runCells (hw : Works n E) {s : Nat → St χ} (h : Ready n s) (hn : 0 < n) :
    CallOk E n .runCells s := by
  intro r0 ha
  obtain ⟨r, s', h1, h2, h3, h4, _⟩ := verdict_runCells hw h hn r0 ha
  exact ⟨r, s', h1, h2, h3, h4⟩

end Verif.Lockstep
