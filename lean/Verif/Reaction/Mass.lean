import Verif.Reaction.MassModel
import Mathlib.Tactic.FieldSimp

/-!
# What the rewriting for a solution keeps
-/

namespace Verif.Reaction

open Verif.Equation (strLe)

/-- A coefficient that was found is one of the coefficients. -/
theorem findCoef_q {Q : ℚ → Prop} {r : Rxn} (hq : ∀ u ∈ r.toks, Q u.coef) {n : Name}
    (h : zeroish (findCoef r n) = false) : Q (findCoef r n) := by
  unfold findCoef at h ⊢
  split
  · rename_i u hu
    exact hq u (List.mem_of_mem_tail ((List.takeWhile_prefix _).subset (List.mem_of_find?_eq_some hu)))
  · rename_i hn
    rw [hn] at h
    simp [zeroish] at h

/-- Adding, without `trxn_combine`. -/
theorem add_ok {r : Rxn} {c : ℚ} {t t1 : Trxn} (hsp : ∀ u ∈ r.toks, u.sp = true)
    (h : add r c t = .ok t1) : t1.live = t.live ++ scale c r.toks ∧ t1.logk = addK t r c ∧ r.toks ≠ [] := by
  unfold add at h
  split at h
  · cases h
  · rename_i hr
    rw [takeWhile_all hsp] at h
    cases h
    exact ⟨rfl, rfl, hr⟩

/-- Entries are put behind those that were there; sums are kept. -/
theorem massTok_ok {Q : ℚ → Prop} (hm : MulClosed Q) {m : Sol} (hsp : ∀ n r pe, m.rewrite n = some (r, pe) → ∀ u ∈ r.toks, u.sp = true ∧ Q u.coef)
    (hpe : ∀ n r, m.pe n = some r → ∀ u ∈ r.toks, u.sp = true ∧ Q u.coef) {M : Nat}
    (hM : ∀ n r pe, m.rewrite n = some (r, pe) → r.toks.length ≤ M)
    (hM' : ∀ n r, m.pe n = some r → r.toks.length ≤ M) {u : Tok} (hq : Q u.coef) {t t1 : Trxn} (hne : t.live ≠ [])
    (h : massTok m u t = .ok t1) :
    (∃ l, t1.live = t.live ++ l ∧ l.length ≤ 2 * M ∧ (∀ v ∈ l, v.sp = true ∧ Q v.coef) ∧
      ((m.rewrite u.name).isSome → l ≠ []) ∧ ((m.rewrite u.name).isSome = false → t1 = t)) ∧ u.sp = true ∧
      ∀ w κ, SolLaw m w κ → val w κ t1 = val w κ t := by
  unfold massTok at h
  split at h
  · cases h
  · rename_i hu
    have hu' : u.sp = true := by simpa using hu
    cases hr : m.rewrite u.name with
    | none =>
      rw [hr] at h
      dsimp only at h
      cases h
      exact ⟨⟨[], by simp, by simp, by simp, by simp, by simp⟩, hu', fun _ _ _ => rfl⟩
    | some q =>
      obtain ⟨r, pe⟩ := q
      rw [hr] at h
      dsimp only at h
      split at h
      · cases h
      · cases ha : add r u.coef t with
        | err => rw [ha] at h; cases h
        | ub => rw [ha] at h; cases h
        | ok t2 =>
          rw [ha] at h
          unfold Res.bind at h
          dsimp only at h
          obtain ⟨a1, a2, a3⟩ := add_ok (fun u hu => (hsp _ _ _ hr u hu).1) ha
          have hl2 : ∀ v ∈ scale u.coef r.toks, v.sp = true ∧ Q v.coef := by
            intro v hv
            obtain ⟨x, hx, rfl⟩ := List.mem_map.mp hv
            exact ⟨(hsp _ _ _ hr x hx).1, hm _ _ hq (hsp _ _ _ hr x hx).2⟩
          have hv2 : ∀ w κ, SolLaw m w κ → val w κ t2 = val w κ t := by
            intro w κ hp
            have := val_add (w := w) (κ := κ) (hp.1 _ _ _ hr) (c := u.coef) hne
            unfold val at this ⊢
            rw [a1, a2]
            exact this
          have hs2 : scale u.coef r.toks ≠ [] := by simpa [scale] using a3
          split at h
          · cases h
            refine ⟨⟨_, a1, ?_, hl2, fun _ => hs2, by simp⟩, hu', hv2⟩
            rw [scale_length]
            have := hM _ _ _ hr
            omega
          · rename_i hz
            cases hp : m.pe pe with
            | none => rw [hp] at h; cases h
            | some p =>
              rw [hp] at h
              dsimp only at h
              obtain ⟨b1, b2, b3⟩ := add_ok (fun u hu => (hpe _ _ hp u hu).1) h
              have hne2 : t2.live ≠ [] := by rw [a1]; simp [hne]
              refine ⟨⟨scale u.coef r.toks ++ scale (u.coef * findCoef r electron) p.toks, ?_, ?_, ?_, ?_,
                by simp⟩, hu', ?_⟩
              · rw [b1, a1, List.append_assoc]
              · rw [List.length_append, scale_length, scale_length]
                have := hM _ _ _ hr
                have := hM' _ _ hp
                omega
              · intro v hv
                rcases List.mem_append.mp hv with hv | hv
                · exact hl2 v hv
                · obtain ⟨x, hx, rfl⟩ := List.mem_map.mp hv
                  exact ⟨(hpe _ _ hp x hx).1, hm _ _ (hm _ _ hq
                    (findCoef_q (fun u hu => (hsp _ _ _ hr u hu).2) (by simpa using hz))) (hpe _ _ hp x hx).2⟩
              · intro _ hn
                exact hs2 (List.append_eq_nil_iff.mp hn).1
              · intro w κ hlaw
                have := val_add (w := w) (κ := κ) (hlaw.2 _ _ hp) (c := u.coef * findCoef r electron) hne2
                rw [← hv2 w κ hlaw]
                unfold val at this ⊢
                rw [b1, b2]
                exact this

/-- The inner loop. -/
theorem massToks_ok {Q : ℚ → Prop} (hm : MulClosed Q) {m : Sol} (hsp : ∀ n r pe, m.rewrite n = some (r, pe) → ∀ u ∈ r.toks, u.sp = true ∧ Q u.coef)
    (hpe : ∀ n r, m.pe n = some r → ∀ u ∈ r.toks, u.sp = true ∧ Q u.coef) {M : Nat}
    (hM : ∀ n r pe, m.rewrite n = some (r, pe) → r.toks.length ≤ M)
    (hM' : ∀ n r, m.pe n = some r → r.toks.length ≤ M) (us : List Tok) : (∀ u ∈ us, Q u.coef) →
    ∀ {t t1 : Trxn}, t.live ≠ [] →
    massToks m us t = .ok t1 →
    (∃ l, t1.live = t.live ++ l ∧ l.length ≤ us.length * (2 * M) ∧ (∀ v ∈ l, v.sp = true ∧ Q v.coef) ∧
      (us.any (fun u => (m.rewrite u.name).isSome) = true → l ≠ []) ∧
      (us.any (fun u => (m.rewrite u.name).isSome) = false → t1 = t)) ∧ (∀ u ∈ us, u.sp = true) ∧
      ∀ w κ, SolLaw m w κ → val w κ t1 = val w κ t := by
  induction us with
  | nil =>
    intro _ t t1 _ h
    unfold massToks at h
    cases h
    exact ⟨⟨[], by simp, by simp, by simp, by simp, by simp⟩, by simp, fun _ _ _ => rfl⟩
  | cons u us ih =>
    intro hq t t1 hne h
    unfold massToks at h
    cases ha : massTok m u t with
    | err => rw [ha] at h; cases h
    | ub => rw [ha] at h; cases h
    | ok t2 =>
      rw [ha] at h
      unfold Res.bind at h
      dsimp only at h
      obtain ⟨⟨l, l1, l2, l3, l4, l5⟩, hu, hv⟩ := massTok_ok hm hsp hpe hM hM' (hq u (by simp)) hne ha
      obtain ⟨⟨k, k1, k2, k3, k4, k5⟩, hus, hvs⟩ := ih (fun v hv => hq v (by simp [hv]))
        (by rw [l1]; simp [hne]) h
      refine ⟨⟨l ++ k, ?_, ?_, ?_, ?_, ?_⟩, ?_, ?_⟩
      · rw [k1, l1, List.append_assoc]
      · rw [List.length_append, List.length_cons, Nat.add_mul]; omega
      · intro v hv
        rcases List.mem_append.mp hv with hv | hv
        · exact l3 v hv
        · exact k3 v hv
      · intro hany hnil
        obtain ⟨n1, n2⟩ := List.append_eq_nil_iff.mp hnil
        rw [List.any_cons, Bool.or_eq_true] at hany
        rcases hany with h | h
        · exact l4 h n1
        · exact k4 h n2
      · intro hany
        rw [List.any_cons, Bool.or_eq_false_iff] at hany
        rw [k5 hany.2, l5 hany.1]
      · intro v hv
        rcases List.mem_cons.mp hv with rfl | hv
        · exact hu
        · exact hus v hv
      · intro w κ hp
        rw [hvs w κ hp, hv w κ hp]

/-- The outer loop. -/
theorem massLoop_ok {Q : ℚ → Prop} (hQ : Closed Q) (hm : MulClosed Q) {sort : List Tok → List Tok} (hs : Sorts sort) {m : Sol}
    (hsp : ∀ n r pe, m.rewrite n = some (r, pe) → ∀ u ∈ r.toks, u.sp = true ∧ Q u.coef)
    (hpe : ∀ n r, m.pe n = some r → ∀ u ∈ r.toks, u.sp = true ∧ Q u.coef) {M : Nat}
    (hM : ∀ n r pe, m.rewrite n = some (r, pe) → r.toks.length ≤ M)
    (hM' : ∀ n r, m.pe n = some r → r.toks.length ≤ M) (n : Nat) : ∀ {t t' : Trxn},
    Good Q t → massLoop sort m n t = .ok t' →
    Step (SolLaw m) Q (t.live.length * (2 * M + 1) ^ n + 3 - t.live.length) t t' ∧
      (∀ u ∈ t'.live.tail, (u.sp = true ∧ m.rewrite u.name = none) ∨ small u.coef = true) ∧
      t'.live.tail.Pairwise (fun u v => strLe u.name v.name = true ∧ u.name ≠ v.name) := by
  induction n with
  | zero => intro t t' _ h; cases h
  | succ n ih =>
    intro t t' hg h
    unfold massLoop at h
    cases ha : massToks m t.live.tail t with
    | err => rw [ha] at h; cases h
    | ub => rw [ha] at h; cases h
    | ok t1 =>
      rw [ha] at h
      unfold Res.bind at h
      dsimp only at h
      cases hc : combine sort t1 with
      | err => rw [hc] at h; cases h
      | ub => rw [hc] at h; cases h
      | ok t2 =>
        rw [hc] at h
        dsimp only at h
        obtain ⟨⟨l, l1, l2, l3, l4, l5⟩, hus, hv⟩ := massToks_ok hm hsp hpe hM hM' _
          (fun u hu => hg.q u (List.mem_of_mem_tail hu)) hg.ne ha
        have hpos := List.length_pos_iff.mpr hg.ne
        have htail : t.live.tail.length = t.live.length - 1 := List.length_tail
        have hg1 : Good Q t1 := by
          by_cases hl : l = []
          · have hany : t.live.tail.any (fun u => (m.rewrite u.name).isSome) = false := by
              cases hb : t.live.tail.any (fun u => (m.rewrite u.name).isSome) with
              | false => rfl
              | true => exact absurd hl (l4 hb)
            rw [l5 hany]; exact hg
          · refine ⟨by rw [l1]; simp [hg.ne], ?_, ?_⟩
            · rw [l1]
              intro u hu
              rcases List.mem_append.mp hu with hu | hu
              · exact hg.q u hu
              · exact (l3 u hu).2
            intro hlen
            have := List.length_pos_iff.mpr hl
            rw [l1, List.length_append] at hlen
            omega
        have hhead : t1.live.head? = t.live.head? := by
          rw [l1]
          cases ht : t.live with
          | nil => exact absurd ht hg.ne
          | cons a b => rfl
        -- the entries put in and the combination
        have hsteps : (∀ k, Step (SolLaw m) Q k t1 t2 →
            Step (SolLaw m) Q (l.length + k) t t2) := by
          rintro k ⟨⟨D, d1, d2, d3, d4⟩, d5, d6⟩
          refine ⟨⟨D, ?_, d2, d3, ?_⟩, d5, d6.trans hhead⟩
          · rw [l1, List.length_append] at d1; omega
          · intro w κ hp
            rw [d4 w κ hp, hv w κ hp]
        have hsc := step_combine (P := SolLaw m) hQ hs hg1 hc
        have hlb : l.length + t.live.length ≤ t.live.length * (2 * M + 1) := by
          rw [htail] at l2
          obtain ⟨k, hk⟩ := Nat.exists_eq_succ_of_ne_zero (Nat.pos_iff_ne_zero.mp hpos)
          rw [hk] at l2 ⊢
          simp only [Nat.succ_eq_add_one, Nat.add_sub_cancel] at l2 ⊢
          rw [Nat.add_mul, Nat.mul_add, Nat.mul_one, Nat.one_mul]
          omega
        split at h
        · rename_i hany
          have hl := l4 hany
          have h2 : 2 ≤ t1.live.length := by
            have := List.length_pos_iff.mpr hl
            rw [l1, List.length_append]; omega
          have hst := hsteps 0 (hsc.2 h2)
          obtain ⟨s1, s2, s3⟩ := ih hst.2.1 h
          refine ⟨(hst.trans s1).mono (fun _ _ h => h) ?_, s2, s3⟩
          obtain ⟨⟨D, d1, _⟩, _⟩ := hst
          have hM1 : 1 ≤ (2 * M + 1) ^ n := Nat.one_le_pow _ _ (by omega)
          obtain ⟨K, hK⟩ : ∃ K, (2 * M + 1) ^ n = K + 1 := ⟨_, (Nat.sub_add_cancel hM1).symm⟩
          have e : t.live.length * (2 * M + 1) ^ (n + 1) = t.live.length * (2 * M + 1) * (K + 1) := by
            rw [Nat.pow_succ, hK]; ring
          have h3 : (l.length + t.live.length) * (K + 1) ≤ t.live.length * (2 * M + 1) * (K + 1) :=
            Nat.mul_le_mul_right _ hlb
          have h4 : t2.live.length * K ≤ (l.length + t.live.length) * K :=
            Nat.mul_le_mul_right _ (by omega)
          rw [e, hK]
          rw [Nat.mul_add, Nat.mul_one]
          rw [Nat.mul_add, Nat.mul_one] at h3
          omega
        · rename_i hany
          have hany' : t.live.tail.any (fun u => (m.rewrite u.name).isSome) = false := by simpa using hany
          cases h
          have e1 := l5 hany'
          subst e1
          refine ⟨hsc.1.mono (fun _ _ h => h) (by
            have : t1.live.length * 1 ≤ t1.live.length * (2 * M + 1) ^ (n + 1) :=
              Nat.mul_le_mul_left _ (Nat.one_le_pow _ _ (by omega))
            omega), ?_, ?_⟩
          · obtain ⟨_, _, _, _, c5, _⟩ := combine_keeps hQ hs hc hg.q hg.settled
            intro u hu
            rcases c5 u hu with ⟨v, hv, e1, e2⟩ | hsm
            · refine Or.inl ⟨by rw [← e1]; exact hus v hv, ?_⟩
              rw [← e2]
              have := List.any_eq_false.mp hany' v hv
              simpa using this
            · exact Or.inr hsm.1
          · by_cases h2 : 2 ≤ t1.live.length
            · exact combine_distinct hs hc h2 hus
            · have h1 : t1.live.length = 1 := by omega
              obtain ⟨a, ha⟩ := List.length_eq_one_iff.mp h1
              rw [combine_one hs t1 ha] at hc
              obtain ⟨x, xs, hx, _⟩ := hg.settled h1
              rw [hx] at hc
              dsimp only at hc
              cases hc
              simp

end Verif.Reaction
