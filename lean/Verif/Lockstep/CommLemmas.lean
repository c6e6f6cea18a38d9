import Verif.Lockstep.Comm

/-!
# Every schedule ends like one of them (helper lemmas)
-/

namespace Verif.Lockstep

variable {σ : Type} {act : Nat → σ → Act σ} {n : Nat}

/-- Number of actions of a step. -/
def Label.weight : Label → Nat
  | .rdv .. => 2
  | _ => 1

/-- Executions without buffering, with the number of actions. -/
inductive Run (act : Nat → σ → Act σ) (n : Nat) : Nat → Config σ → Config σ → Prop
  | nil (C : Config σ) : Run act n 0 C C
  | cons {a : Label} {w : Nat} {C D E : Config σ} (ha : a.Unbuffered) (h : Step act n a C D)
      (t : Run act n w D E) : Run act n (a.weight + w) C E

theorem Run.trans {w w' : Nat} {C D E : Config σ} (h : Run act n w C D) (h' : Run act n w' D E) :
    Run act n (w + w') C E := by
  induction h with
  | nil => simpa using h'
  | cons ha hs _ ih => rw [Nat.add_assoc]; exact .cons ha hs (ih h')

theorem meet_congr {g g' : Nat → Coll} (h0 : 0 < n) (h : ∀ p < n, g p = g' p) :
    meet n g = meet n g' := by
  have hf : ∀ (P : Nat → Coll → Prop), (∀ p < n, P p (g p)) ↔ ∀ p < n, P p (g' p) := by
    intro P
    constructor
    · intro k p hp; rw [← h p hp]; exact k p hp
    · intro k p hp; rw [h p hp]; exact k p hp
  have hd : ∀ {β : Type} (F : Coll → β),
      (List.range n).map (fun q => F (g q)) = (List.range n).map (fun q => F (g' q)) := by
    intro β F
    apply List.map_congr_left
    intro q hq
    rw [h q (List.mem_range.1 hq)]
  unfold meet
  rw [h 0 h0]
  cases g' 0 with
  | bcast ty c v => simp only [hf (fun _ x => x.InBcast ty c)]
  | gather ty c v => simp only [hf (fun _ x => x.InGather ty c), hd Coll.data]
  | gatherv ty cs v => simp only [hf (fun p x => x.InGatherv ty cs[p]?), hd Coll.data]
  | scatterv ty ps w => simp only [hf (fun p x => x.InScatterv ty ps[p]?)]
  | allmin x => simp only [hf (fun _ x => x.InAllmin), hd Coll.number]
  | barrier => simp only [hf (fun _ x => x = Coll.barrier)]

/-- Steps with the same label lead to the same configuration. -/
theorem Step.unique {a : Label} {C D E : Config σ} (h : Step act n a C D)
    (h' : Step act n a C E) : D = E := by
  cases h with
  | coll cs ks rs h1 h2 =>
    cases h' with
    | coll cs' ks' rs' h1' h2' =>
      have hcs : ∀ p < n, cs p = cs' p ∧ ks p = ks' p := by
        intro p hp
        have := (h1 p hp).symm.trans (h1' p hp)
        simpa using this
      have : ∀ p, (if p < n then ks p (rs p) else C.ps p) =
          if p < n then ks' p (rs' p) else C.ps p := by
        intro p
        by_cases hp : p < n
        · have hm : meet n cs = meet n cs' :=
            meet_congr (by omega) (fun q hq => (hcs q hq).1)
          have : rs = rs' := Option.some.inj (h2.symm.trans (hm.trans h2'))
          rw [if_pos hp, if_pos hp, (hcs p hp).2, this]
        · rw [if_neg hp, if_neg hp]
      rw [funext this]
  | push hp hq h1 =>
    cases h' with
    | push _ _ h1' =>
      have := h1.symm.trans h1'
      injection this with _ hv hs
      subst hv; subst hs; rfl
  | pop hp hq h1 hv hf =>
    cases h' with
    | pop _ _ h1' hv' _ =>
      have := h1.symm.trans h1'
      injection this with _ _ _ hk
      have h2 := hv.symm.trans hv'
      injection h2 with ha hb
      subst hk; subst ha; subst hb; rfl
  | rdv hp hq hs hr he hf =>
    cases h' with
    | rdv _ _ hs' hr' _ _ =>
      have h1 := hs.symm.trans hs'
      have h2 := hr.symm.trans hr'
      injection h1 with _ hv hk
      injection h2 with _ _ _ hk2
      subst hv; subst hk; subst hk2; rfl

/-- Two different steps do not disturb each other, except that a message that is handed over
could also have been buffered. -/
theorem Step.commute {a b : Label} {C D E : Config σ} (hb : b.Unbuffered) (h : Step act n a C D)
    (h' : Step act n b C E) (hab : a ≠ b) (hx : ∀ p q, ¬ (a = .push p q ∧ b = .rdv p q)) :
    ∃ F, Step act n b D F ∧ Step act n a E F := by
  cases h with
  | coll cs ks rs h1 h2 =>
    cases h' with
    | coll => exact absurd rfl hab
    | push => exact hb.elim
    | pop hp hq h3 _ _ => rw [h1 _ hq] at h3; cases h3
    | rdv hp hq h3 _ _ _ => rw [h1 _ hp] at h3; cases h3
  | @push _ p q v s hp hq h1 =>
    cases h' with
    | coll cs ks rs h3 h4 => rw [h3 _ hp] at h1; cases h1
    | push => exact hb.elim
    | @pop _ p' q' ty c k v' l hp' hq' h3 hv hf =>
      have hne : q' ≠ p := by rintro rfl; rw [h1] at h3; cases h3
      by_cases hc : (p', q') = (p, q)
      · injection hc with e1 e2
        subst e1; subst e2
        refine ⟨⟨Function.update (Function.update C.ps p' s) q' (k v'),
          Function.update C.ch (p', q') (l ++ [v])⟩, ?_, ?_⟩
        · have := Step.pop (act := act) (n := n) (C := ⟨Function.update C.ps p' s,
            Function.update C.ch (p', q') (C.ch (p', q') ++ [v])⟩) (p := p') (q := q') (v := v')
            (l := l ++ [v]) hp' hq' (by simpa [Function.update_of_ne hne] using h3)
            (by simp [hv]) hf
          simpa using this
        · have := Step.push (act := act) (n := n) (C := ⟨Function.update C.ps q' (k v'),
            Function.update C.ch (p', q') l⟩) (p := p') (q := q') (v := v) (s := s) hp hq
            (by simpa [Function.update_of_ne hne.symm] using h1)
          rw [Function.update_comm hne] at this
          simpa using this
      · refine ⟨⟨Function.update (Function.update C.ps p s) q' (k v'),
          Function.update (Function.update C.ch (p, q) (C.ch (p, q) ++ [v])) (p', q') l⟩, ?_, ?_⟩
        · exact Step.pop (act := act) (n := n) (C := ⟨Function.update C.ps p s,
            Function.update C.ch (p, q) (C.ch (p, q) ++ [v])⟩) (p := p') (q := q') (v := v')
            (l := l) hp' hq' (by simpa [Function.update_of_ne hne] using h3)
            (by simp [Function.update_of_ne hc, hv]) hf
        · have := Step.push (act := act) (n := n) (C := ⟨Function.update C.ps q' (k v'),
            Function.update C.ch (p', q') l⟩) (p := p) (q := q) (v := v) (s := s) hp hq
            (by simpa [Function.update_of_ne hne.symm] using h1)
          rw [Function.update_comm hne, Function.update_comm hc] at this
          simpa [Function.update_of_ne (Ne.symm hc)] using this
    | @rdv _ p' q' ty c k v' s' hp' hq' h3 h4 he hf =>
      have hpp : p ≠ p' := by
        rintro rfl
        have := h1.symm.trans h3
        injection this with e1 _ _
        subst e1
        exact hx p q ⟨rfl, rfl⟩
      have hpq : p ≠ q' := by rintro rfl; rw [h1] at h4; cases h4
      have hc : (p', q') ≠ (p, q) := by intro e; injection e with e1 _; exact hpp e1.symm
      refine ⟨⟨Function.update (Function.update (Function.update C.ps p s) p' s') q' (k v'),
        Function.update C.ch (p, q) (C.ch (p, q) ++ [v])⟩, ?_, ?_⟩
      · exact Step.rdv (act := act) (n := n) (C := ⟨Function.update C.ps p s,
          Function.update C.ch (p, q) (C.ch (p, q) ++ [v])⟩) (p := p') (q := q') hp' hq'
          (by simpa [Function.update_of_ne hpp.symm] using h3)
          (by simpa [Function.update_of_ne hpq.symm] using h4)
          (by simp [Function.update_of_ne hc, he]) hf
      · have := Step.push (act := act) (n := n) (C := ⟨Function.update (Function.update C.ps p' s') q' (k v'),
          C.ch⟩) (p := p) (q := q) (v := v) (s := s) hp hq
          (by simpa [Function.update_of_ne hpp, Function.update_of_ne hpq] using h1)
        rw [Function.update_comm hpq.symm, Function.update_comm hpp.symm] at this
        exact this
  | @pop _ p q ty c k v l hp hq h1 hv hf =>
    cases h' with
    | coll cs ks rs h3 h4 => rw [h3 _ hq] at h1; cases h1
    | push => exact hb.elim
    | @pop _ p' q' ty' c' k' v' l' hp' hq' h3 hv' hf' =>
      have hqq : q ≠ q' := by
        rintro rfl
        have := h1.symm.trans h3
        injection this with e1 _ _ _
        subst e1
        exact hab rfl
      have hc : (p, q) ≠ (p', q') := by intro e; injection e with _ e2; exact hqq e2
      refine ⟨⟨Function.update (Function.update C.ps q (k v)) q' (k' v'),
        Function.update (Function.update C.ch (p, q) l) (p', q') l'⟩, ?_, ?_⟩
      · exact Step.pop (act := act) (n := n) (C := ⟨Function.update C.ps q (k v),
          Function.update C.ch (p, q) l⟩) hp' hq'
          (by simpa [Function.update_of_ne hqq.symm] using h3)
          (by simp [Function.update_of_ne hc.symm, hv']) hf'
      · have := Step.pop (act := act) (n := n) (C := ⟨Function.update C.ps q' (k' v'),
          Function.update C.ch (p', q') l'⟩) (p := p) (q := q) hp hq
          (by simpa [Function.update_of_ne hqq] using h1)
          (by simpa [Function.update_of_ne hc] using hv) hf
        rw [Function.update_comm hqq.symm, Function.update_comm hc.symm] at this
        exact this
    | @rdv _ p' q' ty' c' k' v' s' hp' hq' h3 h4 he hf' =>
      have hqp : q ≠ p' := by rintro rfl; rw [h1] at h3; cases h3
      have hqq : q ≠ q' := by
        rintro rfl
        have := h1.symm.trans h4
        injection this with e1 _ _ _
        subst e1
        rw [he] at hv; cases hv
      have hc : (p', q') ≠ (p, q) := by intro e; injection e with _ e2; exact hqq e2.symm
      refine ⟨⟨Function.update (Function.update (Function.update C.ps q (k v)) p' s') q' (k' v'),
        Function.update C.ch (p, q) l⟩, ?_, ?_⟩
      · exact Step.rdv (act := act) (n := n) (C := ⟨Function.update C.ps q (k v),
          Function.update C.ch (p, q) l⟩) (p := p') (q := q') hp' hq'
          (by simpa [Function.update_of_ne hqp.symm] using h3)
          (by simpa [Function.update_of_ne hqq.symm] using h4)
          (by simp [Function.update_of_ne hc, he]) hf'
      · have := Step.pop (act := act) (n := n)
          (C := ⟨Function.update (Function.update C.ps p' s') q' (k' v'), C.ch⟩) (p := p) (q := q)
          hp hq (by simpa [Function.update_of_ne hqp, Function.update_of_ne hqq] using h1) hv hf
        rw [Function.update_comm hqq.symm, Function.update_comm hqp.symm] at this
        exact this
  | @rdv _ p q ty c k v s hp hq h1 h2 he hf =>
    cases h' with
    | coll cs ks rs h3 h4 => rw [h3 _ hp] at h1; cases h1
    | push => exact hb.elim
    | @pop _ p' q' ty' c' k' v' l' hp' hq' h3 hv' hf' =>
      have hqp : q' ≠ p := by rintro rfl; rw [h1] at h3; cases h3
      have hqq : q' ≠ q := by
        rintro rfl
        have := h2.symm.trans h3
        injection this with e1 _ _ _
        subst e1
        rw [he] at hv'; cases hv'
      have hc : (p, q) ≠ (p', q') := by intro e; injection e with _ e2; exact hqq e2.symm
      refine ⟨⟨Function.update (Function.update (Function.update C.ps q' (k' v')) p s) q (k v),
        Function.update C.ch (p', q') l'⟩, ?_, ?_⟩
      · have := Step.pop (act := act) (n := n)
          (C := ⟨Function.update (Function.update C.ps p s) q (k v), C.ch⟩) (p := p') (q := q')
          hp' hq' (by simpa [Function.update_of_ne hqp, Function.update_of_ne hqq] using h3) hv' hf'
        rw [Function.update_comm hqq.symm, Function.update_comm hqp.symm] at this
        exact this
      · exact Step.rdv (act := act) (n := n) (C := ⟨Function.update C.ps q' (k' v'),
          Function.update C.ch (p', q') l'⟩) (p := p) (q := q) hp hq
          (by simpa [Function.update_of_ne hqp.symm] using h1)
          (by simpa [Function.update_of_ne hqq.symm] using h2)
          (by simp [Function.update_of_ne hc, he]) hf
    | @rdv _ p' q' ty' c' k' v' s' hp' hq' h3 h4 he' hf' =>
      have hpp : p ≠ p' := by
        rintro rfl
        have := h1.symm.trans h3
        injection this with e1 _ _
        subst e1
        exact hab rfl
      have hqq : q ≠ q' := by
        rintro rfl
        have := h2.symm.trans h4
        injection this with e1 _ _ _
        exact hpp e1
      have hpq : p ≠ q' := by rintro rfl; rw [h1] at h4; cases h4
      have hqp : q ≠ p' := by rintro rfl; rw [h2] at h3; cases h3
      refine ⟨⟨Function.update (Function.update (Function.update (Function.update C.ps p s) q (k v))
        p' s') q' (k' v'), C.ch⟩, ?_, ?_⟩
      · exact Step.rdv (act := act) (n := n)
          (C := ⟨Function.update (Function.update C.ps p s) q (k v), C.ch⟩) (p := p') (q := q')
          hp' hq' (by simpa [Function.update_of_ne hpp.symm, Function.update_of_ne hqp.symm] using h3)
          (by simpa [Function.update_of_ne hpq.symm, Function.update_of_ne hqq.symm] using h4) he' hf'
      · have := Step.rdv (act := act) (n := n)
          (C := ⟨Function.update (Function.update C.ps p' s') q' (k' v'), C.ch⟩) (p := p) (q := q)
          hp hq (by simpa [Function.update_of_ne hpp, Function.update_of_ne hpq] using h1)
          (by simpa [Function.update_of_ne hqp, Function.update_of_ne hqq] using h2) he hf
        rw [Function.update_comm hpq.symm, Function.update_comm hpp.symm,
          Function.update_comm hqq.symm, Function.update_comm hqp.symm] at this
        exact this

/-- A message that is buffered and then received might have been handed over. -/
theorem Step.push_pop {p q : Nat} {C D E : Config σ} (h : Step act n (.push p q) C D)
    (h' : Step act n (.rdv p q) C E) : Step act n (.pop p q) D E := by
  cases h with
  | @push _ _ _ v0 s0 hp hq h1 =>
    cases h' with
    | @rdv _ _ _ ty c k v s _ _ hs hr he hf =>
      have := h1.symm.trans hs
      injection this with _ hv hk
      subst hv; subst hk
      have hne : q ≠ p := by rintro rfl; rw [hs] at hr; cases hr
      have := Step.pop (act := act) (n := n) (C := ⟨Function.update C.ps p s0,
        Function.update C.ch (p, q) (C.ch (p, q) ++ [v0])⟩) (p := p) (q := q) (v := v0) (l := [])
        hp hq (by simpa [Function.update_of_ne hne] using hr) (by simp [he]) hf
      have e : Function.update (Function.update C.ch (p, q) (C.ch (p, q) ++ [v0])) (p, q) [] = C.ch := by
        rw [Function.update_idem, ← he, Function.update_eq_self]
      rw [e] at this
      exact this

theorem Final.no_step {a : Label} {C D : Config σ} (hf : Final act n C) (h : Step act n a C D)
    (h0 : 0 < n) : False := by
  cases h with
  | coll cs ks rs h1 h2 => have := h1 0 h0; rw [hf.1 0 h0] at this; cases this
  | push hp hq h1 => rw [hf.1 _ hp] at h1; cases h1
  | pop hp hq h1 hv hf' => rw [hf.1 _ hq] at h1; cases h1
  | rdv hp hq h1 h2 he hf' => rw [hf.1 _ hp] at h1; cases h1

/-- Any step can be continued to the end of a given execution, with fewer actions. -/
theorem Run.divert (h0 : 0 < n) {w : Nat} {C F : Config σ} (hr : Run act n w C F)
    (hf : Final act n F) : ∀ {a : Label} {D : Config σ}, Step act n a C D →
      ∃ w', w' < w ∧ Run act n w' D F := by
  induction hr with
  | nil C => intro a D h; exact (hf.no_step h h0).elim
  | @cons b w C E F hb hs ht ih =>
    intro a D h
    by_cases hab : a = b
    · subst hab
      rw [h.unique hs]
      exact ⟨w, by cases a <;> simp [Label.weight], ht⟩
    · by_cases hx : ∃ p q, a = .push p q ∧ b = .rdv p q
      · obtain ⟨p, q, rfl, rfl⟩ := hx
        have := h.push_pop hs
        exact ⟨_, by simp [Label.weight], Run.cons (a := .pop p q) trivial this ht⟩
      · obtain ⟨G, h1, h2⟩ := Step.commute hb h hs hab (by
          intro p q hpq; exact hx ⟨p, q, hpq⟩)
        obtain ⟨w', hw, hr'⟩ := ih hf h2
        exact ⟨_, by omega, Run.cons hb h1 hr'⟩

/-- Any execution can be continued to the end of a given one, and is no longer than it. -/
theorem Exec.bounded (h0 : 0 < n) {m : Nat} {C D : Config σ} (he : Exec act n m C D) :
    ∀ {w : Nat} {F : Config σ}, Run act n w C F → Final act n F →
      ∃ w', w' + m ≤ w ∧ Run act n w' D F := by
  induction he with
  | nil C => intro w F hr _; exact ⟨w, by omega, hr⟩
  | cons h t ih =>
    intro w F hr hf
    obtain ⟨w1, hw, hr1⟩ := hr.divert h0 hf h
    obtain ⟨w2, hw2, hr2⟩ := ih hr1 hf
    exact ⟨w2, by omega, hr2⟩

end Verif.Lockstep
