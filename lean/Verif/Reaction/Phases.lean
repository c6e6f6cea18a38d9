import Verif.Reaction.Rewrite

/-!
# Master species and phases
-/

namespace Verif.Reaction

open Verif.Equation (strLe)

/-- The first `trxn_add` copies the reaction. -/
theorem add_first {r : Rxn} {t t1 : Trxn} (hsp : ∀ u ∈ r.toks, u.sp = true)
    (h : add r 1 (clear t) = .ok t1) : t1.live = r.toks ∧ t1.logk = r.logk ∧ r.toks ≠ [] := by
  unfold add at h
  split at h
  · cases h
  · rename_i hr
    rw [takeWhile_all hsp] at h
    cases h
    refine ⟨?_, ?_, hr⟩
    · simp [Trxn.push, clear, scale]
    · simp [addK, clear]

/-- The first `trxn_add_phase` copies the reaction. -/
theorem addPhase_first {r : Rxn} {t t1 : Trxn} (h : addPhase r 1 (clear t) = .ok t1) :
    t1.live = r.toks ∧ t1.logk = r.logk ∧ r.toks ≠ [] := by
  unfold addPhase at h
  split at h
  · cases h
  · rename_i hr
    cases h
    refine ⟨?_, ?_, hr⟩
    · simp [Trxn.push, clear, scale]
    · simp [addK, clear]

theorem good_first {Q : ℚ → Prop} {r : Rxn} {t1 : Trxn} (hl : t1.live = r.toks) (h2 : 2 ≤ r.toks.length)
    (hq : ∀ u ∈ r.toks, Q u.coef) : Good Q t1 := by
  refine ⟨?_, ?_, ?_⟩
  · intro h; rw [← hl, h] at h2; simp at h2
  · rw [hl]; exact hq
  · intro h; rw [hl] at h; omega

/-- From a step to the specification. -/
theorem nearly {P : Weight → ℚ → Prop} {Q : ℚ → Prop} {k m : Nat} {t t' : Trxn} (h : Step P Q k t t')
    (h0 : ∀ w κ, P w κ → val w κ t = 0) (hk : t.live.length + k ≤ 2 * m + 1) :
    NearlyObeys P m (copy t') := by
  obtain ⟨⟨D, d1, d2, d3, d4⟩, _⟩ := h
  refine ⟨D, by omega, d2, ?_⟩
  intro w κ hp
  unfold Obeys copy
  dsimp only
  rw [tot_append]
  have := d4 w κ hp
  rw [h0 w κ hp] at this
  unfold val at this
  linarith

/-- With numbers in a discrete set nothing is lost. -/
theorem exactly {P : Weight → ℚ → Prop} {Q : ℚ → Prop} (hd : Discrete Q) {k : Nat} {t t' : Trxn}
    (h : Step P Q k t t') {w : Weight} {κ : ℚ} (hP : P w κ) : val w κ t' = val w κ t := by
  obtain ⟨⟨D, d1, d2, d3, d4⟩, _⟩ := h
  have hz : tot w D = 0 := by
    have : ∀ d ∈ D, d.coef * w d.sp d.name = 0 := by
      intro d hdm
      rw [hd d.coef (d3 d hdm) (d2 d hdm), zero_mul]
    unfold tot
    apply List.sum_eq_zero
    intro x hx
    obtain ⟨d, hd1, rfl⟩ := List.mem_map.mp hx
    exact this d hd1
  have := d4 w κ hP
  rw [hz, add_zero] at this
  exact this

/-- A reaction and its negative. -/
theorem twice {Q : ℚ → Prop} (hQ : Closed Q) {sort : List Tok → List Tok} (hs : Sorts sort) {r : Rxn}
    (hsp : ∀ u ∈ r.toks, u.sp = true ∧ Q u.coef) {t t' : Trxn}
    (h : (add r 1 (clear t)).bind (fun t => (add r (-1) t).bind (combine sort)) = .ok t') :
    (∃ D : List Tok, 2 * D.length ≤ 2 * r.toks.length ∧ (∀ d ∈ D, |d.coef| ≤ tol) ∧ (∀ d ∈ D, Q d.coef) ∧
      ∀ w, tot w (t'.live ++ D) = 0) ∧ t'.logk = 0 ∧ t'.live.head? = r.toks.head? ∧
      ((∀ u ∈ r.toks, small u.coef = false) → ∀ u ∈ t'.live.tail, small u.coef = false) ∧
      (∀ u ∈ t'.live.tail, u.sp = true ∧ ∃ v ∈ r.toks, v.name = u.name) ∧
      t'.live.tail.Pairwise (fun u v => strLe u.name v.name = true ∧ u.name ≠ v.name) := by
  cases ha : add r 1 (clear t) with
  | err => rw [ha] at h; cases h
  | ub => rw [ha] at h; cases h
  | ok t1 =>
    rw [ha] at h
    unfold Res.bind at h
    dsimp only at h
    obtain ⟨e1, e2, e3⟩ := add_first (fun u hu => (hsp u hu).1) ha
    unfold add at h
    rw [if_neg e3, takeWhile_all (fun u hu => (hsp u hu).1)] at h
    dsimp only at h
    obtain ⟨a, l, hal⟩ : ∃ a l, r.toks = a :: l := by
      cases hr : r.toks with
      | nil => exact absurd hr e3
      | cons a l => exact ⟨a, l, rfl⟩
    have hlive : ({ t1.push (scale (-1) r.toks) with logk := addK t1 r (-1) } : Trxn).live =
        a :: (l ++ scale (-1) r.toks) := by
      simp [Trxn.push, e1, hal]
    have hne : l ++ scale (-1) r.toks ≠ [] := by
      rw [hal]; simp [scale]
    have hq : ∀ u ∈ l ++ scale (-1) r.toks, Q u.coef := by
      intro u hu
      rcases List.mem_append.mp hu with hu | hu
      · exact (hsp u (by rw [hal]; simp [hu])).2
      · obtain ⟨v, hv, rfl⟩ := List.mem_map.mp hu
        have := hQ.neg _ (hsp v hv).2
        simpa using this
    have hss : ∀ u ∈ l ++ scale (-1) r.toks, u.sp = true ∧ ∃ v ∈ r.toks, v.name = u.name := by
      intro u hu
      rcases List.mem_append.mp hu with hu | hu
      · exact ⟨(hsp u (by rw [hal]; simp [hu])).1, u, by rw [hal]; simp [hu], rfl⟩
      · obtain ⟨v, hv, rfl⟩ := List.mem_map.mp hu
        exact ⟨(hsp v hv).1, v, hv, rfl⟩
    have hk : ({ t1.push (scale (-1) r.toks) with logk := addK t1 r (-1) } : Trxn).logk = 0 := by
      simp [addK, e1, e2, e3]
    have hg : Good Q ({ t1.push (scale (-1) r.toks) with logk := addK t1 r (-1) } : Trxn) := by
      refine ⟨by rw [hlive]; simp, ?_, ?_⟩
      · rw [hlive]
        intro u hu
        rcases List.mem_cons.mp hu with rfl | hu
        · exact (hsp u (by rw [hal]; simp)).2
        · exact hq u hu
      · intro hl
        rw [hlive] at hl
        have := List.length_pos_iff.mpr hne
        simp only [List.length_cons] at hl
        omega
    have h2 : 2 ≤ ({ t1.push (scale (-1) r.toks) with logk := addK t1 r (-1) } : Trxn).live.length := by
      rw [hlive]
      have := List.length_pos_iff.mpr hne
      simp only [List.length_cons]; omega
    have hh : t'.live.head? = r.toks.head? := by
      have := (combine_keeps hQ hs h hg.q hg.settled).1
      rw [this, hlive, hal]; rfl
    have hmem := (combine_keeps hQ hs h hg.q hg.settled).2.2.2.1 h2
    refine ⟨?_, ?_, hh, ?_, ?_, ?_⟩
    · obtain ⟨D, d1, d2, d3, d4, d5, d6⟩ := combine_near hQ hs h hg.q hg.settled
      refine ⟨D, ?_, d3, fun d hd => d4 d (by simp [hd]), ?_⟩
      · have := d2 h2
        rw [hlive] at this
        simp only [List.length_cons, List.length_append, scale_length] at this
        rw [hal] at this ⊢
        simp only [List.length_cons] at this ⊢
        omega
      · intro w
        rw [tot_append, d5 w, hlive, tot_cons, tot_append, tot_scale, hal, tot_cons]
        ring
    · obtain ⟨D, d1, d2, d3, d4, d5, d6⟩ := combine_near hQ hs h hg.q hg.settled
      rw [d6, hk]
    · intro hlarge
      obtain ⟨s1, sr, sp', g1, g2, g3, g4⟩ := combine_two hQ hs _ hlive hne hq
      rw [g2] at h
      cases h
      have hp := (hs (l ++ scale (-1) r.toks)).1
      rw [g1] at hp
      intro u hu
      have hu' : u ∈ sr.foldl put [s1] := by simpa using hu
      refine pass_large sr [s1] ?_ u hu'
      intro v hv
      have : v ∈ l ++ scale (-1) r.toks := hp.subset (by simpa using hv)
      rcases List.mem_append.mp this with hv | hv
      · exact hlarge v (by rw [hal]; simp [hv])
      · obtain ⟨x, hx, rfl⟩ := List.mem_map.mp hv
        have := hlarge x hx
        simpa [small] using this
    · intro u hu
      obtain ⟨v, hv, f1, f2⟩ := hmem u hu
      rw [hlive] at hv
      obtain ⟨g1, x, hx, g2⟩ := hss v hv
      exact ⟨by rw [← f1]; exact g1, x, hx, by rw [← f2]; exact g2⟩
    · refine combine_distinct hs h h2 ?_
      rw [hlive]
      intro u hu
      exact (hss u hu).1

/-- The loop that replaces solids and gases. -/
theorem step_species {Q : ℚ → Prop} (hQ : Closed Q) (hm : MulClosed Q) {sort : List Tok → List Tok}
    (hs : Sorts sort) {db : Db}
    (hdb : ∀ n r, db.phase n = some r → (∀ u ∈ r.toks, Q u.coef) ∧
      ∀ h, r.toks.head? = some h → h.coef = -1) {M : Nat}
    (hM : ∀ n r, db.phase n = some r → r.toks.length ≤ M) (n : Nat) :
    ∀ {t t' : Trxn}, Good Q t → toSpecies sort db n t = .ok t' →
      Step (PhaseLaw db) Q ((n - 1) * M) t t' ∧ ∀ u ∈ t'.live.tail, u.sp = true := by
  induction n with
  | zero => intro t t' _ h; cases h
  | succ n ih =>
    intro t t' hg h
    unfold toSpecies at h
    cases hf : t.live.tail.findIdx? (fun u => !u.sp) with
    | none =>
      rw [hf] at h
      dsimp only at h
      cases h
      refine ⟨Step.refl hg _, ?_⟩
      intro u hu
      have := List.findIdx?_eq_none_iff.mp hf u hu
      simpa using this
    | some i =>
      rw [hf] at h
      dsimp only at h
      cases hu : t.live[i + 1]? with
      | none => rw [hu] at h; cases h
      | some u =>
        rw [hu] at h
        dsimp only at h
        have hsp : u.sp = false := by
          obtain ⟨x, hx, _⟩ := List.findIdx?_eq_some_iff_getElem.mp hf
          have e1 : t.live.tail[i]? = some u := by rw [List.getElem?_tail]; exact hu
          rw [List.getElem?_eq_getElem x] at e1
          cases e1
          simpa using hx
        have hum : u ∈ t.live := List.mem_of_getElem? hu
        cases hp : db.phase u.name with
        | none => rw [hp] at h; cases h
        | some r =>
          rw [hp] at h
          dsimp only at h
          cases hr : r.toks with
          | nil => rw [hr] at h; cases h
          | cons a rs =>
            rw [hr] at h
            dsimp only at h
            obtain ⟨q1, q2⟩ := hdb _ _ hp
            have ha : a.coef = -1 := q2 a (by rw [hr]; rfl)
            unfold addPhase at h
            rw [if_neg (by rw [hr]; simp)] at h
            unfold Res.bind at h
            dsimp only at h
            have hlt : i + 1 < t.live.length := by
              by_contra hc
              rw [List.getElem?_eq_none (by omega)] at hu
              cases hu
            have hset : (t.push (scale u.coef r.toks)).live.set (i + 1) (replaceTok a u) =
                t.live.set (i + 1) (replaceTok a u) ++ scale u.coef r.toks := by
              simp only [Trxn.push]
              rw [List.set_append_left _ _ hlt]
            rw [hset] at h
            have hpos := List.length_pos_iff.mpr hg.ne
            have hg1 : Good Q (⟨t.live.set (i + 1) (replaceTok a u) ++ scale u.coef r.toks,
                (t.push (scale u.coef r.toks)).spare, addK t r u.coef⟩ : Trxn) := by
              refine ⟨?_, ?_, ?_⟩
              · intro hn
                have := congrArg List.length hn
                simp only [List.length_append, List.length_set, List.length_nil] at this
                omega
              · intro v hv
                rcases List.mem_append.mp hv with hv | hv
                · rcases List.mem_or_eq_of_mem_set hv with hv | rfl
                  · exact hg.q v hv
                  · simp only [replaceTok]
                    exact hm _ _ (hQ.neg _ (hg.q u hum)) (q1 a (by rw [hr]; simp))
                · obtain ⟨x, hx, rfl⟩ := List.mem_map.mp hv
                  exact hm _ _ (hg.q u hum) (q1 x hx)
              · intro hl
                simp only [List.length_append, List.length_set, scale_length, hr, List.length_cons] at hl
                omega
            cases hc : combine sort (⟨t.live.set (i + 1) (replaceTok a u) ++ scale u.coef r.toks,
                (t.push (scale u.coef r.toks)).spare, addK t r u.coef⟩ : Trxn) with
            | err => rw [hc] at h; cases h
            | ub => rw [hc] at h; cases h
            | ok t2 =>
              rw [hc] at h
              dsimp only at h
              have hs2 := (step_combine (P := PhaseLaw db) hQ hs hg1 hc).2 (by
                simp only [List.length_append, List.length_set]
                omega)
              obtain ⟨⟨D, d1, d2, d3, d4⟩, d5, d6⟩ := hs2
              have hstep : Step (PhaseLaw db) Q r.toks.length t t2 := by
                refine ⟨⟨D, ?_, d2, d3, ?_⟩, d5, ?_⟩
                · simp only [List.length_append, List.length_set, scale_length] at d1; omega
                · intro w κ hP
                  rw [d4 w κ hP]
                  obtain ⟨o1, o2⟩ := hP _ _ hp
                  have hval := val_add (w := w) (κ := κ) o1 (c := u.coef) hg.ne
                  unfold val at hval ⊢
                  dsimp only
                  rw [← hval, tot_append, tot_append]
                  have e : tot w (t.live.set (i + 1) (replaceTok a u)) = tot w t.live := by
                    have hsplit : t.live = t.live.take (i + 1) ++ u :: t.live.drop (i + 2) := by
                      have := List.getElem?_eq_some_iff.mp hu
                      obtain ⟨_, hg'⟩ := this
                      rw [← hg', ← List.drop_eq_getElem_cons hlt, List.take_append_drop]
                    rw [List.set_eq_take_append_cons_drop, if_pos hlt]
                    conv_rhs => rw [hsplit]
                    rw [tot_append, tot_append, tot_cons, tot_cons]
                    simp only [replaceTok]
                    rw [ha, o2 a (by rw [hr]; rfl), hsp]
                    ring
                  rw [e]
                · rw [d6]
                  cases ht : t.live with
                  | nil => exact absurd ht hg.ne
                  | cons x l => rfl
              obtain ⟨s2, s3⟩ := ih hstep.2.1 h
              refine ⟨(hstep.trans s2).mono (fun _ _ h => h) ?_, s3⟩
              have hn : n ≠ 0 := by rintro rfl; cases h
              have hmu := hM _ _ hp
              obtain ⟨k, rfl⟩ := Nat.exists_eq_succ_of_ne_zero hn
              simp only [Nat.succ_eq_add_one, Nat.add_sub_cancel]
              rw [Nat.add_mul]
              omega

/-- `replace_solids_gases` as a step. -/
theorem step_solids {Q : ℚ → Prop} (hQ : Closed Q) (hm : MulClosed Q) {sort : List Tok → List Tok}
    (hs : Sorts sort) {db : Db}
    (hdb : ∀ n r, db.phase n = some r → (∀ u ∈ r.toks, Q u.coef) ∧
      ∀ h, r.toks.head? = some h → h.coef = -1) {M : Nat}
    (hM : ∀ n r, db.phase n = some r → r.toks.length ≤ M) {t t' : Trxn} (hg : Good Q t)
    (h : replaceSolids sort db t = .ok t') : Step (PhaseLaw db) Q (19 * M + 3) t t' := by
  unfold replaceSolids at h
  cases ha : toSpecies sort db maxAdd t with
  | err => rw [ha] at h; cases h
  | ub => rw [ha] at h; cases h
  | ok t1 =>
    rw [ha] at h
    unfold Res.bind at h
    dsimp only at h
    obtain ⟨s1, _⟩ := step_species hQ hm hs hdb hM maxAdd hg ha
    have s3 := (step_combine (P := PhaseLaw db) hQ hs s1.2.1 h).1
    exact (s1.trans s3).mono (fun _ _ h => h) (by simp [maxAdd])

/-- The constant with the other sign. -/
theorem step_reverse {P : Weight → ℚ → Prop} {Q : ℚ → Prop} {k : Nat} {t t' : Trxn}
    (h : Step P Q k (reverseK t) t') : Step (fun w κ => P w (-κ)) Q k t (reverseK t') := by
  obtain ⟨⟨D, d1, d2, d3, d4⟩, d5, d6⟩ := h
  refine ⟨⟨D, d1, d2, d3, ?_⟩, ⟨d5.ne, d5.q, d5.settled⟩, d6⟩
  intro w κ hp
  have := d4 w (-κ) hp
  unfold val reverseK at this ⊢
  dsimp only at this ⊢
  linarith

theorem good_reverse {Q : ℚ → Prop} {t : Trxn} (h : Good Q t) : Good Q (reverseK t) :=
  ⟨h.ne, h.q, h.settled⟩

end Verif.Reaction
