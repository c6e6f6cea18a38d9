import Verif.Lockstep.Hoare

/-!
# Lemmas: calls that leave the settings and the division of the cells
-/

namespace Verif.Lockstep

open Spec

variable {n : Nat} {χ α β σ : Type} {E : Engine χ}

/-- Nothing changes that the invariant is about. -/
structure Soft (s s' : St χ) : Prop where
  sh : s'.sh = s.sh
  rootArr : ∀ a, Kept a → s'.rootArr a = s.rootArr a
  workArr : ∀ a, Kept a → s'.workArr a = s.workArr a
  maskRoot : s'.maskRoot = s.maskRoot
  maskWork : s'.maskWork = s.maskWork
  saved : s'.saved = s.saved
  oldSat : s'.oldSatRoot = s.oldSatRoot

theorem Soft.refl (s : St χ) : Soft s s := ⟨rfl, fun _ _ => rfl, fun _ _ => rfl, rfl, rfl, rfl, rfl⟩

theorem Soft.trans {s s1 s2 : St χ} (h : Soft s s1) (k : Soft s1 s2) : Soft s s2 :=
  ⟨k.sh.trans h.sh, fun a ha => (k.rootArr a ha).trans (h.rootArr a ha),
    fun a ha => (k.workArr a ha).trans (h.workArr a ha), k.maskRoot.trans h.maskRoot,
    k.maskWork.trans h.maskWork, k.saved.trans h.saved, k.oldSat.trans h.oldSat⟩

theorem Soft.kin {s s' : St χ} (h : Soft s s') : Kin s.sh.set s.sh.check s s' :=
  ⟨h.sh, h.rootArr, h.workArr, h.maskRoot, h.maskWork, by rw [h.saved]⟩

theorem Mild.soft {s s' : St χ} (h : Mild s s') : Soft s s' := by
  obtain ⟨e, o, c, rfl⟩ := h
  exact ⟨rfl, fun _ _ => rfl, fun _ _ => rfl, rfl, rfl, rfl, rfl⟩

theorem Soft.clear (s : St χ) : Soft s s.clear :=
  ⟨rfl, fun _ _ => rfl, fun _ _ => rfl, rfl, rfl, rfl, rfl⟩

theorem ready_soft {s s' : Nat → St χ} (h : Ready n s) (hn : 0 < n)
    (hk : ∀ p < n, Soft (s p) (s' p)) : Ready n s' := by
  refine ready_kin h hn (g := (s 0).sh.set) (ck := (s 0).sh.check) ?_ h.mode ?_
  · intro p hp
    have := (hk p hp).kin
    rw [h.agree p hp] at this
    exact this
  · rw [(hk 0 hn).oldSat]
    exact h.oldSat

theorem post_soft {s s' : Nat → St χ} {c : Call} (h : Ready n s) (hn : 0 < n)
    (hk : ∀ p < n, Soft (s p) (s' p)) (hg : ∀ g, Spec.apply c g = g) (hc : ∀ a v, c ≠ .setArr a v) :
    Post n c s s' := by
  refine Post.kin hn (g := (s 0).sh.set) (ck := (s 0).sh.check) ?_ (hg _).symm hc
  intro p hp
  have := (hk p hp).kin
  rw [h.agree p hp] at this
  exact this

theorem lay_soft {s s' : Nat → St χ} (h : Lay n s) (hn : 0 < n)
    (hk : ∀ p < n, Soft (s p) (s' p)) : Lay n s' := by
  refine ⟨?_, ?_, ?_⟩
  · intro p hp; rw [(hk p hp).sh, (hk 0 hn).sh]; exact h.agree p hp
  · rw [(hk 0 hn).sh]; exact h.divides
  · rw [(hk 0 hn).sh]; exact h.back

theorem CallOk.fin {s s1 : Nat → St χ} {c : Call} (m : Method)
    (hm : m ≠ .workerBreak) (G : Nat → M (St χ) IRM)
    (hp : Tells m (perform E n c (s 0)) (G 0 (s1 0)))
    (hw : ∀ p < n, p ≠ 0 → dispatch E n p m (s p) = G p (s1 p))
    (ht : Fin' n G s1 (fun _ s' => Ready n s' ∧ Post n c s s') (fun s' => Ready n s' ∧ Post n c s s')) :
    CallOk E n c s := by
  cases ht with
  | ok a s' h q =>
    exact CallOk.told m hm G hp hw h (fun _ _ => alive_ok _) q.1 q.2
  | threw s' h q =>
    exact CallOk.told m hm G hp hw h (fun _ _ => alive_threw) q.1 q.2

/-- As `CallOk.fin`, for calls that leave everything the invariant is about. -/
theorem CallOk.soft {s s1 : Nat → St χ} (h : Ready n s) (hn : 0 < n) {c : Call} (m : Method)
    (hm : m ≠ .workerBreak) (G : Nat → M (St χ) IRM)
    (hp : Tells m (perform E n c (s 0)) (G 0 (s1 0)))
    (hw : ∀ p < n, p ≠ 0 → dispatch E n p m (s p) = G p (s1 p))
    (hg : ∀ g, Spec.apply c g = g) (hc : ∀ a v, c ≠ .setArr a v)
    (ht : Fin' n G s1 (fun _ s' => ∀ p < n, Soft (s p) (s' p)) (fun s' => ∀ p < n, Soft (s p) (s' p))) :
    CallOk E n c s :=
  CallOk.fin m hm G hp hw (ht.mono (fun _ _ k => ⟨ready_soft h hn k, post_soft h hn k hg hc⟩)
    (fun _ k => ⟨ready_soft h hn k, post_soft h hn k hg hc⟩))

theorem fin_returnHandler (c : IRM) (s : Nat → St χ) (ha : ∀ p < n, (s p).sh.set.mode = (s 0).sh.set.mode)
    (hm : (s 0).sh.set.mode = 0 ∨ (s 0).sh.set.mode = 1) {Q : (Nat → IRM) → (Nat → St χ) → Prop}
    {T : (Nat → St χ) → Prop} (hq : Q (fun _ => c) s) (ht : T s) :
    Fin' n (fun _ => returnHandler c) s Q T := by
  by_cases hc : c = .ok
  · subst hc
    exact .ok (fun _ => .ok) s (Tog.loc (fun _ _ => rfl)) hq
  · rcases hm with h | h
    · refine .ok (fun _ => c) s (Tog.loc ?_) hq
      intro p hp
      simp only [returnHandler, if_neg hc]
      show (if (s p).sh.set.mode = 1 then M.throw else if (s p).sh.set.mode = 2 then M.exit
        else M.pure c) (s p) = _
      rw [ha p hp, h]; rfl
    · refine .threw s (Tog.loc ?_) ht
      intro p hp
      simp only [returnHandler, if_neg hc]
      show (if (s p).sh.set.mode = 1 then M.throw else if (s p).sh.set.mode = 2 then M.exit
        else M.pure c) (s p) = _
      rw [ha p hp, h]; rfl

/-! ## States -/

theorem callOk_stateSave {s : Nat → St χ} (h : Ready n s) (hn : 0 < n) (i : Int) :
    CallOk E n (.stateSave i) s := by
  refine CallOk.fin .stateSave nofun (fun p => M.bind (M.bcastInt (if p = 0 then i else 0)) (fun i =>
      M.bind (M.modify (fun s => { s with
        saved := (i, s.chem) :: s.saved.filter (fun e => e.1 ≠ i)
        sh := { s.sh with savedCells :=
          (i, s.sh.cells) :: s.sh.savedCells.filter (fun e => e.1 ≠ i) } })) (fun _ => M.pure IRM.ok)))
    (s1 := s) ⟨_, rfl, rfl⟩ ?_ ?_
  · intro p hp h0
    simp only [dispatch, stateSave, tell, M.onRoot, if_neg h0]
    rfl
  · refine Fin'.bind (Q := fun a s1 => (a = fun _ => i) ∧ s = s1) ?_ ?_
    · exact Fin'.of_tog (Tog.bcastInt _) ⟨by simp, rfl⟩
    · rintro _ _ ⟨rfl, rfl⟩
      refine Fin'.modify_bind (Fin'.pure (a := fun _ => IRM.ok) ⟨⟨?_, ?_, ?_, ?_, ?_, ?_, ?_, ?_, ?_⟩, ?_⟩)
      · intro p hp; dsimp only; rw [h.agree p hp]
      · exact h.divides
      · exact h.back
      · exact h.arrays
      · exact h.mask
      · intro p hp
        dsimp only
        have := h.keys p hp
        simp only [List.map_cons, List.cons.injEq, true_and]
        have e : ∀ {γ : Type} (l : List (Int × γ)), (l.filter (fun e => decide (e.1 ≠ i))).map Prod.fst =
            (l.map Prod.fst).filter (fun e => decide (e ≠ i)) := by
          intro γ l
          rw [List.filter_map]
          rfl
        rw [e, e, this]
      · intro e he
        dsimp only at he
        rcases List.mem_cons.1 he with rfl | he
        · exact h.divides
        · exact h.savedDivides e (List.mem_filter.1 he).1
      · exact h.mode
      · exact h.oldSat
      · exact ⟨rfl, rfl, rfl, rfl, fun a _ => rfl, fun _ hp => hp⟩

theorem lookup_isSome {γ : Type} (l : List (Int × γ)) (i : Int) :
    (l.lookup i).isSome = true ↔ i ∈ l.map Prod.fst := by
  induction l with
  | nil => simp
  | cons e l ih =>
    obtain ⟨k, v⟩ := e
    simp only [List.lookup_cons, List.map_cons, List.mem_cons]
    by_cases hk : i = k
    · subst hk; simp
    · have : (i == k) = false := by simpa using hk
      simp [this, ih, hk]

theorem lookup_mem {γ : Type} {l : List (Int × γ)} {i : Int} {v : γ} (h : l.lookup i = some v) :
    (i, v) ∈ l := by
  induction l with
  | nil => simp at h
  | cons e l ih =>
    obtain ⟨k, w⟩ := e
    rw [List.lookup_cons] at h
    by_cases hk : i = k
    · subst hk
      simp at h
      simp [h]
    · have : (i == k) = false := by simpa using hk
      rw [this] at h
      exact List.mem_cons_of_mem _ (ih h)

theorem callOk_stateApply {s : Nat → St χ} (h : Ready n s) (hn : 0 < n) (i : Int) :
    CallOk E n (.stateApply i) s := by
  refine CallOk.fin .stateApply nofun (fun p => M.bind (M.bcastInt (if p = 0 then i else 0)) (fun i =>
      M.bind M.get (fun s => match s.saved.lookup i, s.sh.savedCells.lookup i with
      | some c, some cs => M.bind (M.modify (fun s =>
          { s with chem := c, sh := { s.sh with cells := cs } })) (fun _ => M.pure IRM.ok)
      | _, _ => M.pure .invalidArg)))
    (s1 := s) ⟨_, rfl, rfl⟩ ?_ ?_
  · intro p hp h0
    simp only [dispatch, stateApply, tell, M.onRoot, if_neg h0]
    rfl
  · refine Fin'.bind (Q := fun a s1 => (a = fun _ => i) ∧ s = s1) ?_ ?_
    · exact Fin'.of_tog (Tog.bcastInt _) ⟨by simp, rfl⟩
    · rintro _ _ ⟨rfl, rfl⟩
      refine Fin'.get_bind ?_
      by_cases hi : i ∈ (s 0).sh.savedCells.map Prod.fst
      · obtain ⟨cs, hcs⟩ := Option.isSome_iff_exists.1 ((lookup_isSome (s 0).sh.savedCells i).2 hi)
        have hc : ∀ p, ∃ c, p < n → (s p).saved.lookup i = some c := by
          intro p
          by_cases hp : p < n
          · obtain ⟨c, hc⟩ := Option.isSome_iff_exists.1 ((lookup_isSome (s p).saved i).2
              (by rw [h.keys p hp]; exact hi))
            exact ⟨c, fun _ => hc⟩
          · exact ⟨(s p).chem, fun hh => absurd hh hp⟩
        choose c hc using hc
        have hdiv := h.savedDivides _ (lookup_mem hcs)
        refine Fin'.congr (m := fun p => M.bind (M.modify (fun s =>
          { s with chem := c p, sh := { s.sh with cells := cs } })) (fun _ => M.pure IRM.ok)) (s := s)
          (Fin'.modify_bind (Fin'.pure (a := fun _ => IRM.ok)
            ⟨⟨?_, hdiv, h.back, h.arrays, h.mask, h.keys, h.savedDivides, h.mode, h.oldSat⟩, ?_⟩)) ?_
        · intro p hp; dsimp only; rw [h.agree p hp]
        · refine ⟨rfl, rfl, rfl, rfl, fun a _ => rfl, fun hne _ => absurd rfl (hne i)⟩
        · intro p hp
          dsimp only
          rw [hc p hp, h.agree p hp, hcs]
      · refine Fin'.congr (m := fun _ => M.pure .invalidArg) (s := s)
          (Fin'.pure (a := fun _ => IRM.invalidArg) ⟨h, rfl, rfl, rfl, rfl, fun a _ => rfl, fun _ hp => hp⟩) ?_
        intro p hp
        dsimp only
        have : (s 0).sh.savedCells.lookup i = none := by
          rw [← Option.not_isSome_iff_eq_none]
          intro hh
          exact hi ((lookup_isSome _ _).1 hh)
        rw [h.agree p hp, this]
        cases (s p).saved.lookup i <;> rfl

theorem callOk_stateDelete {s : Nat → St χ} (h : Ready n s) (hn : 0 < n) (i : Int) :
    CallOk E n (.stateDelete i) s := by
  refine CallOk.fin .stateDelete nofun (fun p => M.bind (M.bcastInt (if p = 0 then i else 0)) (fun i =>
      M.bind M.get (fun s => match s.saved.lookup i, s.sh.savedCells.lookup i with
      | some _, some _ => M.bind (M.modify (fun s => { s with
          saved := s.saved.filter (fun e => e.1 ≠ i)
          sh := { s.sh with savedCells := s.sh.savedCells.filter (fun e => e.1 ≠ i) } }))
            (fun _ => M.pure IRM.ok)
      | _, _ => M.pure .invalidArg)))
    (s1 := s) ⟨_, rfl, rfl⟩ ?_ ?_
  · intro p hp h0
    simp only [dispatch, stateDelete, tell, M.onRoot, if_neg h0]
    rfl
  · refine Fin'.bind (Q := fun a s1 => (a = fun _ => i) ∧ s = s1) ?_ ?_
    · exact Fin'.of_tog (Tog.bcastInt _) ⟨by simp, rfl⟩
    · rintro _ _ ⟨rfl, rfl⟩
      refine Fin'.get_bind ?_
      by_cases hi : i ∈ (s 0).sh.savedCells.map Prod.fst
      · obtain ⟨cs, hcs⟩ := Option.isSome_iff_exists.1 ((lookup_isSome (s 0).sh.savedCells i).2 hi)
        refine Fin'.congr (m := fun p => M.bind (M.modify (fun s => { s with
          saved := s.saved.filter (fun e => e.1 ≠ i)
          sh := { s.sh with savedCells := s.sh.savedCells.filter (fun e => e.1 ≠ i) } }))
            (fun _ => M.pure IRM.ok)) (s := s)
          (Fin'.modify_bind (Fin'.pure (a := fun _ => IRM.ok)
            ⟨⟨?_, h.divides, h.back, h.arrays, h.mask, ?_, ?_, h.mode, h.oldSat⟩, ?_⟩)) ?_
        · intro p hp; dsimp only; rw [h.agree p hp]
        · intro p hp
          dsimp only
          have e : ∀ {γ : Type} (l : List (Int × γ)), (l.filter (fun e => decide (e.1 ≠ i))).map Prod.fst =
              (l.map Prod.fst).filter (fun e => decide (e ≠ i)) := by
            intro γ l
            rw [List.filter_map]
            rfl
          rw [e, e, h.keys p hp]
        · intro e he
          exact h.savedDivides e (List.mem_filter.1 he).1
        · exact ⟨rfl, rfl, rfl, rfl, fun a _ => rfl, fun _ hp => hp⟩
        · intro p hp
          dsimp only
          obtain ⟨c, hc⟩ := Option.isSome_iff_exists.1 ((lookup_isSome (s p).saved i).2
            (by rw [h.keys p hp]; exact hi))
          rw [hc, h.agree p hp, hcs]
      · refine Fin'.congr (m := fun _ => M.pure .invalidArg) (s := s)
          (Fin'.pure (a := fun _ => IRM.invalidArg) ⟨h, rfl, rfl, rfl, rfl, fun a _ => rfl, fun _ hp => hp⟩) ?_
        intro p hp
        dsimp only
        have : (s 0).sh.savedCells.lookup i = none := by
          rw [← Option.not_isSome_iff_eq_none]
          intro hh
          exact hi ((lookup_isSome _ _).1 hh)
        rw [h.agree p hp, this]
        cases (s p).saved.lookup i <;> rfl

end Verif.Lockstep
