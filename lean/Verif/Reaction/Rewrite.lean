import Verif.Reaction.Combine

/-!
# What the rewriting keeps

Each function is a step that keeps the weighted sums, up to small terms that are counted.
-/

namespace Verif.Reaction

open Verif.Equation (strLe)

/-- The weighted sum and the multiple of the constant. -/
def val (w : Weight) (κ : ℚ) (t : Trxn) : ℚ := tot w t.live + κ * t.logk

/-- The reaction is not empty and its numbers are in `Q`. -/
structure Good (Q : ℚ → Prop) (t : Trxn) : Prop where
  ne : t.live ≠ []
  q : ∀ u ∈ t.live, Q u.coef
  settled : Settled Q t

/-- From `t` to `t'`: sums are kept, up to small terms; `k` bounds the number of entries that come in. -/
def Step (P : Weight → ℚ → Prop) (Q : ℚ → Prop) (k : Nat) (t t' : Trxn) : Prop :=
  (∃ D : List Tok, 2 * D.length + t'.live.length ≤ t.live.length + k ∧ (∀ d ∈ D, |d.coef| ≤ tol) ∧
    (∀ d ∈ D, Q d.coef) ∧ ∀ w κ, P w κ → val w κ t' + tot w D = val w κ t) ∧
  Good Q t' ∧ t'.live.head? = t.live.head?

theorem Step.refl {P : Weight → ℚ → Prop} {Q : ℚ → Prop} {t : Trxn} (h : Good Q t) (k : Nat) :
    Step P Q k t t :=
  ⟨⟨[], by simp, by simp, by simp, by simp [tot]⟩, h, rfl⟩

theorem Step.trans {P : Weight → ℚ → Prop} {Q : ℚ → Prop} {k l : Nat} {t u v : Trxn}
    (h : Step P Q k t u) (g : Step P Q l u v) : Step P Q (k + l) t v := by
  obtain ⟨⟨D, h1, h2, h3, h4⟩, h5, h6⟩ := h
  obtain ⟨⟨E, g1, g2, g3, g4⟩, g5, g6⟩ := g
  refine ⟨⟨D ++ E, ?_, ?_, ?_, ?_⟩, g5, g6.trans h6⟩
  · rw [List.length_append]; omega
  · intro d hd
    rcases List.mem_append.mp hd with hd | hd
    · exact h2 d hd
    · exact g2 d hd
  · intro d hd
    rcases List.mem_append.mp hd with hd | hd
    · exact h3 d hd
    · exact g3 d hd
  · intro w κ hP
    rw [tot_append, ← h4 w κ hP, ← g4 w κ hP]
    ring

theorem Step.mono {P P' : Weight → ℚ → Prop} {Q : ℚ → Prop} {k l : Nat} {t u : Trxn}
    (h : Step P Q k t u) (hP : ∀ w κ, P' w κ → P w κ) (hk : k ≤ l) : Step P' Q l t u := by
  obtain ⟨⟨D, h1, h2, h3, h4⟩, h5⟩ := h
  exact ⟨⟨D, by omega, h2, h3, fun w κ hp => h4 w κ (hP w κ hp)⟩, h5⟩

/-- `trxn_combine` as a step. -/
theorem step_combine {P : Weight → ℚ → Prop} {Q : ℚ → Prop} (hQ : Closed Q)
    {sort : List Tok → List Tok} (hs : Sorts sort) {t t' : Trxn} (hg : Good Q t)
    (h : combine sort t = .ok t') : Step P Q 3 t t' ∧ (2 ≤ t.live.length → Step P Q 0 t t') := by
  obtain ⟨D, d1, d2, d3, d4, d5, d6⟩ := combine_near hQ hs h hg.q hg.settled
  obtain ⟨c1, c2, c3, c4, c5, c6⟩ := combine_keeps hQ hs h hg.q hg.settled
  have hgood : Good Q t' := ⟨c2, fun u hu => d4 u (by simp [hu]), c3⟩
  have hval : ∀ w κ, P w κ → val w κ t' + tot w D = val w κ t := by
    intro w κ _
    unfold val
    rw [d6, ← d5 w]
    ring
  have hcount : 2 ≤ t.live.length → 2 * D.length + t'.live.length ≤ t.live.length + 0 := d2
  refine ⟨⟨⟨D, ?_, d3, fun d hd => d4 d (by simp [hd]), hval⟩, hgood, c1⟩, fun h2 =>
    ⟨⟨D, hcount h2, d3, fun d hd => d4 d (by simp [hd]), hval⟩, hgood, c1⟩⟩
  by_cases h2 : 2 ≤ t.live.length
  · have := hcount h2; omega
  · have : t.live.length = 1 := by
      have := List.length_pos_iff.mpr hg.ne
      omega
    have hl : ∃ a, t.live = [a] := List.length_eq_one_iff.mp this
    obtain ⟨a, ha⟩ := hl
    rw [combine_one hs t ha] at h
    obtain ⟨x, xs, hx, _⟩ := hg.settled this
    rw [hx] at h
    dsimp only at h
    cases h
    rw [ha] at d1 ⊢
    simp only [List.length_cons, List.length_nil] at d1 ⊢
    omega

theorem takeWhile_all {l : List Tok} (h : ∀ u ∈ l, u.sp = true) : l.takeWhile (·.sp) = l := by
  rw [List.takeWhile_eq_self_iff]
  exact h

theorem scale_length (c : ℚ) (l : List Tok) : (scale c l).length = l.length := by simp [scale]

/-- Adding a multiple of a reaction that obeys the weights. -/
theorem val_add {w : Weight} {κ : ℚ} {r : Rxn} (hr : Obeys w κ r) {c : ℚ} {t : Trxn} (hne : t.live ≠ []) :
    tot w (t.live ++ scale c r.toks) + κ * addK t r c = val w κ t := by
  unfold val addK
  rw [if_neg hne, tot_append, tot_scale]
  unfold Obeys at hr
  have : c * (tot w r.toks + κ * r.logk) = 0 := by rw [hr, mul_zero]
  linarith

/-- `trxn_add` and `trxn_combine`. -/
theorem step_round {P : Weight → ℚ → Prop} {Q : ℚ → Prop} (hQ : Closed Q)
    {sort : List Tok → List Tok} (hs : Sorts sort) {r : Rxn} {c : ℚ} {t t1 t2 : Trxn} (hg : Good Q t)
    (hP : ∀ w κ, P w κ → Obeys w κ r) (hsp : ∀ u ∈ r.toks, u.sp = true ∧ Q (c * u.coef))
    (h1 : add r c t = .ok t1) (h2 : combine sort t1 = .ok t2) :
    Step P Q r.toks.length t t2 ∧ 2 ≤ t1.live.length ∧ t1.live = t.live ++ scale c r.toks := by
  unfold add at h1
  split at h1
  · cases h1
  · rename_i hr
    rw [takeWhile_all (fun u hu => (hsp u hu).1)] at h1
    cases h1
    have hlen : 2 ≤ (t.live ++ scale c r.toks).length := by
      have := List.length_pos_iff.mpr hg.ne
      have := List.length_pos_iff.mpr hr
      rw [List.length_append, scale_length]; omega
    refine ⟨?_, hlen, rfl⟩
    have hg1 : Good Q { t.push (scale c r.toks) with logk := addK t r c } := by
      refine ⟨?_, ?_, ?_⟩
      · simp [Trxn.push, hg.ne]
      · intro u hu
        rcases List.mem_append.mp hu with hu | hu
        · exact hg.q u hu
        · obtain ⟨v, hv, rfl⟩ := List.mem_map.mp hu
          exact (hsp v hv).2
      · intro hl
        simp only [Trxn.push] at hl
        omega
    obtain ⟨⟨D, d1, d2, d3, d4⟩, d5, d6⟩ := (step_combine (P := P) hQ hs hg1 h2).2 hlen
    refine ⟨⟨D, ?_, d2, d3, ?_⟩, d5, ?_⟩
    · simp only [Trxn.push, List.length_append, scale_length] at d1; omega
    · intro w κ hp
      rw [d4 w κ hp]
      exact val_add (hP w κ hp) hg.ne
    · rw [d6]
      simp only [Trxn.push]
      cases ht : t.live with
      | nil => exact absurd ht hg.ne
      | cons a l => rfl

/-- The loop of the rewriting. -/
theorem step_subst {Q : ℚ → Prop} (hQ : Closed Q) (hm : MulClosed Q) {sort : List Tok → List Tok}
    (hs : Sorts sort) {db : Db} (hdb : ∀ n, ∀ u ∈ (db.rxn n).toks, u.sp = true ∧ Q u.coef) {M : Nat}
    (hM : ∀ n, (db.rxn n).toks.length ≤ M) {bad : Name → Bool} {nul : Res Trxn}
    (hnul : ∀ a, nul ≠ .ok a) (n : Nat) :
    ∀ {t t' : Trxn}, Good Q t → subst sort db bad nul n t = .ok t' →
      Step (Law db) Q ((n - 1) * M) t t' ∧
        ∀ u ∈ t'.live.tail, u.sp = true ∧ bad u.name = false := by
  induction n with
  | zero => intro t t' _ h; cases h
  | succ n ih =>
    intro t t' hg h
    unfold subst at h
    cases hf : t.live.tail.find? (fun u => !u.sp || bad u.name) with
    | none =>
      rw [hf] at h
      dsimp only at h
      cases h
      refine ⟨Step.refl hg _, ?_⟩
      intro u hu
      have := List.find?_eq_none.mp hf u hu
      simpa using this
    | some u =>
      rw [hf] at h
      dsimp only at h
      split at h
      · exact absurd h (hnul t')
      · have hu : u ∈ t.live := List.mem_of_mem_tail (List.mem_of_find?_eq_some hf)
        cases ha : add (db.rxn u.name) u.coef t with
        | err => rw [ha] at h; cases h
        | ub => rw [ha] at h; cases h
        | ok t1 =>
          rw [ha] at h
          unfold Res.bind at h
          dsimp only at h
          cases hc : combine sort t1 with
          | err => rw [hc] at h; cases h
          | ub => rw [hc] at h; cases h
          | ok t2 =>
            rw [hc] at h
            dsimp only at h
            obtain ⟨s1, _, _⟩ := step_round (P := Law db) hQ hs hg
              (fun w κ hp => hp u.name) (fun v hv => ⟨(hdb u.name v hv).1, hm _ _ (hg.q u hu) (hdb u.name v hv).2⟩) ha hc
            obtain ⟨s2, s3⟩ := ih s1.2.1 h
            refine ⟨(s1.trans s2).mono (fun _ _ h => h) ?_, s3⟩
            have hn : n ≠ 0 := by rintro rfl; cases h
            have hmu := hM u.name
            obtain ⟨k, rfl⟩ := Nat.exists_eq_succ_of_ne_zero hn
            simp only [Nat.succ_eq_add_one, Nat.add_sub_cancel]
            rw [Nat.add_mul]
            omega

/-- The rewriting with the last `trxn_combine`. -/
theorem step_rewrite {Q : ℚ → Prop} (hQ : Closed Q) (hm : MulClosed Q) {sort : List Tok → List Tok}
    (hs : Sorts sort) {db : Db} (hdb : ∀ n, ∀ u ∈ (db.rxn n).toks, u.sp = true ∧ Q u.coef) {M : Nat}
    (hM : ∀ n, (db.rxn n).toks.length ≤ M) {bad : Name → Bool} {nul : Res Trxn}
    (hnul : ∀ a, nul ≠ .ok a) {t t' : Trxn} (hg : Good Q t)
    (h : (subst sort db bad nul maxAdd t).bind (combine sort) = .ok t') :
    Step (Law db) Q (19 * M + 3) t t' ∧
      (∀ u ∈ t'.live.tail, (u.sp = true ∧ bad u.name = false) ∨ small u.coef = true) ∧
      t'.live.tail.Pairwise (fun u v => strLe u.name v.name = true ∧ u.name ≠ v.name) := by
  cases ha : subst sort db bad nul maxAdd t with
  | err => rw [ha] at h; cases h
  | ub => rw [ha] at h; cases h
  | ok t1 =>
    rw [ha] at h
    unfold Res.bind at h
    dsimp only at h
    obtain ⟨s1, s2⟩ := step_subst hQ hm hs hdb hM hnul maxAdd hg ha
    have s3 := (step_combine (P := Law db) hQ hs s1.2.1 h).1
    obtain ⟨_, _, _, _, c5, _⟩ := combine_keeps hQ hs h s1.2.1.q s1.2.1.settled
    refine ⟨(s1.trans s3).mono (fun _ _ h => h) (by simp [maxAdd]), ?_, ?_⟩
    · intro u hu
      rcases c5 u hu with ⟨v, hv, e1, e2⟩ | hsm
      · exact Or.inl (by rw [← e1, ← e2]; exact s2 v hv)
      · exact Or.inr hsm.1
    · by_cases h2 : 2 ≤ t1.live.length
      · exact combine_distinct hs h h2 (fun u hu => (s2 u hu).1)
      · have h1 : t1.live.length = 1 := by
          have := List.length_pos_iff.mpr s1.2.1.ne
          omega
        obtain ⟨a, ha⟩ := List.length_eq_one_iff.mp h1
        rw [combine_one hs t1 ha] at h
        obtain ⟨x, xs, hx, _⟩ := s1.2.1.settled h1
        rw [hx] at h
        dsimp only at h
        cases h
        simp

end Verif.Reaction
