import Verif.Boundary.Lemmas

/-! # C63: concentrations of boundary solutions -/

namespace Verif.Boundary

open Verif.OMap Verif.NameDouble Verif.Mixing Verif.Conc Verif.Grid

/-- An entry whose solutions exist has a result. -/
theorem entry_spec {st : Init} {es : List Name} (hr : Ready st es) {b1 b2 : List Int}
    {fr : List ℚ} {b : Bin} {c : List ℚ} {i : Nat} {n : Int} {s1 : Solution}
    (hb : Same st b) (hc : c.length = st.comps.length * b1.length) (hn : b1[i]? = some n)
    (h1 : First st n s1) (hu : Usable s1) (hg : Good st b2 fr i s1) :
    ∃ b' c', entry st b1 b2 fr (b, c) i = .ok (b', c') ∧ Same st b' ∧ c'.length = c.length ∧
      (∀ i' k, i' < b1.length → k < st.comps.length → i' ≠ i →
        c'[b1.length * k + i']? = c[b1.length * k + i']?) ∧
      ∀ (k : Nat) (gw g f : ℚ), st.gfw[0]? = some gw → st.gfw[k]? = some g → Fraction fr i f →
        (Alone b2 i → ∃ x m, c'[b1.length * k + i]? = some x ∧ Amount st.h2o gw es k s1 m ∧
          IsMolar st.units s1.density g x (m / s1.solnVol)) ∧
        (∀ n2 s2, b2[i]? = some n2 → 0 ≤ n2 → find st.sols n2 = some s2 →
          ∃ x m1 m2, c'[b1.length * k + i]? = some x ∧ Amount st.h2o gw es k s1 m1 ∧
            Amount st.h2o gw es k s2 m2 ∧
            IsMolar st.units
              ((f * (s1.massWater * s1.density) + (1 - f) * (s2.massWater * s2.density)) /
                (f * s1.massWater + (1 - f) * s2.massWater)) g x
              ((f * m1 + (1 - f) * m2) / (f * s1.solnVol + (1 - f) * s2.solnVol))) := by
  have hi : i < b1.length := (List.getElem?_eq_some_iff.mp hn).1
  have run : ∀ s2 f1 f2, Usable s2 → Outcome st (mixture st b2 fr i n b).1
      (mixture st b2 fr i n b).2 s1 s2 f1 f2 →
      ∃ c', entry st b1 b2 fr (b, c) i = .ok ((mixture st b2 fr i n b).1, c') ∧
        c'.length = c.length ∧
        (∀ i' k, i' < b1.length → k < st.comps.length → i' ≠ i →
          c'[b1.length * k + i']? = c[b1.length * k + i']?) ∧
        ∀ (k : Nat) (gw g : ℚ), st.gfw[0]? = some gw → st.gfw[k]? = some g →
          ∃ x m1 m2, c'[b1.length * k + i]? = some x ∧ Amount st.h2o gw es k s1 m1 ∧
            Amount st.h2o gw es k s2 m2 ∧
            IsMolar st.units
              ((f1 * (s1.massWater * s1.density) + f2 * (s2.massWater * s2.density)) /
                (f1 * s1.massWater + f2 * s2.massWater)) g x
              ((f1 * m1 + f2 * m2) / (f1 * s1.solnVol + f2 * s2.solnVol)) := by
    intro s2 f1 f2 hu2 ho
    obtain ⟨d, d1, d2, d3⟩ := concs_spec hr ho hu hu2
    obtain ⟨c', e1, e2, e3⟩ := writeComps_spec b1.length st.comps.length i d c hi (le_of_eq d2.symm)
      st.comps.length (le_refl _) (by rw [hc]; ring)
    refine ⟨c', ?_, e2, ?_, ?_⟩
    · unfold entry
      rw [idx_nat hn, Out.ok_bind]
      simp only [d1, Out.ok_bind]
      unfold writeComps
      rw [e1]
      rfl
    · intro i' k hi' hk hne
      rw [e3 i' k hi' hk, if_neg (fun h => hne h.1)]
    · intro k gw g hw hgk
      have hk : k < st.comps.length := by
        rw [← hr.gfwl]; exact (List.getElem?_eq_some_iff.mp hgk).1
      have hk' := hk
      rw [comps_length hr] at hk'
      obtain ⟨m1, a1⟩ := amount_exists st.h2o gw es k hk' s1
      obtain ⟨m2, a2⟩ := amount_exists st.h2o gw es k hk' s2
      obtain ⟨x, x1, x2⟩ := d3 gw k g m1 m2 hw hgk a1 a2
      refine ⟨x, m1, m2, ?_, a1, a2, x2⟩
      rw [e3 i k hi hk, if_pos ⟨rfl, hk⟩, x1]
  have fu : ∀ {f f' : ℚ}, Fraction fr i f → Fraction fr i f' → f = f' := by
    rintro f f' (h | ⟨h, e⟩) (h' | ⟨h', e'⟩)
    · rw [h] at h'; cases h'; rfl
    · rw [h] at h'; cases h'
    · rw [h] at h'; cases h'
    · rw [e, e']
  cases hg with
  | alone f ha hf h0 =>
    have ho := mixture_alone hr.sols hb h1 hu (.inl ha) hf h0
    obtain ⟨c', r1, r2, r3, r4⟩ := run s1 f 0 hu ho
    refine ⟨_, c', r1, ho.same, r2, r3, fun k gw g f' hw hgk hf' => ⟨fun _ => ?_, ?_⟩⟩
    · obtain ⟨x, m1, m2, x1, x2, _, x3⟩ := r4 k gw g hw hgk
      refine ⟨x, m1, x1, x2, ?_⟩
      have w := ne_of_gt hu.water
      have v := ne_of_gt hu.vol
      have f0 := ne_of_gt h0
      have q1 : (f * (s1.massWater * s1.density) + 0 * (s1.massWater * s1.density)) /
          (f * s1.massWater + 0 * s1.massWater) = s1.density := by
        rw [zero_mul, zero_mul, add_zero, add_zero]; field_simp
      have q2 : (f * m1 + 0 * m2) / (f * s1.solnVol + 0 * s1.solnVol) = m1 / s1.solnVol := by
        rw [zero_mul, zero_mul, add_zero, add_zero]; field_simp
      rw [q1, q2] at x3
      exact x3
    · intro n2 s2 hn2 h20 _
      have := ha n2 hn2
      omega
  | both f n2 s2 hn2 h20 hs2 hu2 hf h0 hf1 =>
    have ho : Outcome st (mixture st b2 fr i n b).1 (mixture st b2 fr i n b).2 s1 s2 f (1 - f) := by
      rcases lt_or_eq_of_le hf1 with h | h
      · exact mixture_both hr.sols hb h1 hu hn2 h20 hs2 hu2 hf h0 h
      · have ho := mixture_alone hr.sols (b2 := b2) hb h1 hu (.inr h) hf (by rw [h]; norm_num)
        refine ⟨ho.same, ho.parts, fun X => ?_, by rw [h]; norm_num, h0, by rw [h]; norm_num⟩
        rw [ho.sums, h]; ring
    obtain ⟨c', r1, r2, r3, r4⟩ := run s2 f (1 - f) hu2 ho
    refine ⟨_, c', r1, ho.same, r2, r3, fun k gw g f' hw hgk hf' => ⟨fun ha => ?_, ?_⟩⟩
    · have := ha n2 hn2
      omega
    · intro n2' s2' hn2' h20' hs2'
      rw [hn2] at hn2'; cases hn2'
      rw [hs2] at hs2'; cases hs2'
      rw [fu hf' hf]
      exact r4 k gw g hw hgk

/-- C63, what holds. For every list of boundary entries whose solutions exist, with water,
volume and density positive: the call succeeds and writes one value for every component and
entry. Without a second solution, the value is the concentration in the first alone (the
fraction must be positive). With a second one and a fraction `f` between 0 and 1, it is `f`
times the moles in the first and `1 - f` times those in the second, in the volume
`f * V1 + (1 - f) * V2`.

The full claim has no condition on the solutions, the fraction of an entry without second
solution and the mixtures (`missing_violated`, `missing_second_violated`,
`ignored_fraction_violated`, `mix_number_violated`), and takes a mass fraction to be a share of
the mass of the mixture: the code divides by a density that is the mean weighted by water, so
that mass fractions are correct only in that sense (`mass_fraction_violated`). -/
theorem boundary_partial (st : Init) (es : List Name) (hr : Ready st es) (b1 b2 : List Int)
    (fr dest : List ℚ) (hne : b1 ≠ [])
    (hall : ∀ (i : Nat) n, b1[i]? = some n →
      ∃ s1, First st n s1 ∧ Usable s1 ∧ Good st b2 fr i s1) :
    ∃ c, boundary st b1 b2 fr dest = .ok (c, .value .ok) ∧
      c.length = st.comps.length * b1.length ∧
      ∀ (i : Nat) (n : Int) (s1 : Solution) (k : Nat) (gw g f : ℚ), b1[i]? = some n →
        First st n s1 → st.gfw[0]? = some gw → st.gfw[k]? = some g → Fraction fr i f →
        (Alone b2 i → ∃ x m, c[b1.length * k + i]? = some x ∧ Amount st.h2o gw es k s1 m ∧
          IsMolar st.units s1.density g x (m / s1.solnVol)) ∧
        (∀ n2 s2, b2[i]? = some n2 → 0 ≤ n2 → find st.sols n2 = some s2 →
          ∃ x m1 m2, c[b1.length * k + i]? = some x ∧ Amount st.h2o gw es k s1 m1 ∧
            Amount st.h2o gw es k s2 m2 ∧
            IsMolar st.units
              ((f * (s1.massWater * s1.density) + (1 - f) * (s2.massWater * s2.density)) /
                (f * s1.massWater + (1 - f) * s2.massWater)) g x
              ((f * m1 + (1 - f) * m2) / (f * s1.solnVol + (1 - f) * s2.solnVol))) := by
  have loop : ∀ m, m ≤ b1.length → ∀ c0 : List ℚ, c0.length = st.comps.length * b1.length →
      ∃ b c, (List.range m).foldlM (entry st b1 b2 fr) ((fun _ => none), c0) = .ok (b, c) ∧
        Same st b ∧ c.length = c0.length ∧
        ∀ (i : Nat) (n : Int) (s1 : Solution) (k : Nat) (gw g f : ℚ), i < m → b1[i]? = some n →
          First st n s1 → st.gfw[0]? = some gw → st.gfw[k]? = some g → Fraction fr i f →
          (Alone b2 i → ∃ x m, c[b1.length * k + i]? = some x ∧ Amount st.h2o gw es k s1 m ∧
            IsMolar st.units s1.density g x (m / s1.solnVol)) ∧
          (∀ n2 s2, b2[i]? = some n2 → 0 ≤ n2 → find st.sols n2 = some s2 →
            ∃ x m1 m2, c[b1.length * k + i]? = some x ∧ Amount st.h2o gw es k s1 m1 ∧
              Amount st.h2o gw es k s2 m2 ∧
              IsMolar st.units
                ((f * (s1.massWater * s1.density) + (1 - f) * (s2.massWater * s2.density)) /
                  (f * s1.massWater + (1 - f) * s2.massWater)) g x
                ((f * m1 + (1 - f) * m2) / (f * s1.solnVol + (1 - f) * s2.solnVol))) := by
    intro m
    induction m with
    | zero =>
      intro _ c0 h0
      exact ⟨_, c0, rfl, fun n x _ h => by simp at h, rfl, fun i _ _ _ _ _ _ h => by omega⟩
    | succ m ih =>
      intro hm c0 h0
      obtain ⟨b, c, r1, r2, r3, r4⟩ := ih (by omega) c0 h0
      have hn := List.getElem?_eq_getElem (show m < b1.length by omega)
      obtain ⟨s1, f1, u1, g1⟩ := hall m _ hn
      obtain ⟨b', c', e1, e2, e3, e4, e5⟩ := entry_spec hr r2 (r3.trans h0) hn f1 u1 g1
      refine ⟨b', c', ?_, e2, e3.trans r3, ?_⟩
      · rw [List.range_succ, List.foldlM_append, r1]
        simp only [Out.ok_bind, List.foldlM_cons, List.foldlM_nil, e1]
        rfl
      · intro i n s k gw g f hi hn' hf hw hgk hfr
        by_cases h : i = m
        · subst h
          rw [hn] at hn'; cases hn'
          have : s = s1 := by
            have a := (resolve_first hr.sols hf).2
            rw [(resolve_first hr.sols f1).2] at a
            cases a; rfl
          rw [this]
          exact e5 k gw g f hw hgk hfr
        · have hk : k < st.comps.length := by
            rw [← hr.gfwl]; exact (List.getElem?_eq_some_iff.mp hgk).1
          rw [e4 i k (by omega) hk h]
          exact r4 i n s k gw g f (by omega) hn' hf hw hgk hfr
  have hres : (resize dest (st.comps.length * b1.length)).length =
      st.comps.length * b1.length := by
    unfold resize
    simp only [List.length_append, List.length_take, List.length_replicate, min_def]
    split_ifs <;> omega
  obtain ⟨b, c, r1, _, r3, r4⟩ := loop b1.length (le_refl _) _ hres
  refine ⟨c, ?_, r3.trans hres, ?_⟩
  · unfold boundary
    rw [if_neg hne]
    simp only [r1]
  · intro i n s1 k gw g f hn
    exact r4 i n s1 k gw g f (List.getElem?_eq_some_iff.mp hn).1 hn

/-- The overload without mixing gives the concentrations of the solutions, whatever was in the
array. -/
theorem boundarySimple_partial (st : Init) (es : List Name) (hr : Ready st es) (b1 : List Int)
    (dest : List ℚ) (hne : b1 ≠ [])
    (hall : ∀ (i : Nat) n, b1[i]? = some n → ∃ s1, First st n s1 ∧ Usable s1) :
    ∃ c, boundarySimple st b1 dest = .ok (c, .value .ok) ∧
      c.length = st.comps.length * b1.length ∧
      ∀ (i : Nat) (n : Int) (s1 : Solution) (k : Nat) (gw g : ℚ), b1[i]? = some n →
        First st n s1 → st.gfw[0]? = some gw → st.gfw[k]? = some g →
        ∃ x m, c[b1.length * k + i]? = some x ∧ Amount st.h2o gw es k s1 m ∧
          IsMolar st.units s1.density g x (m / s1.solnVol) := by
  obtain ⟨c, h1, h2, h3⟩ := boundary_partial st es hr b1 [] [] dest hne (fun i n hn => by
    obtain ⟨s1, a, b⟩ := hall i n hn
    exact ⟨s1, a, b, .alone 1 (by simp [Alone]) (.inr ⟨by simp, rfl⟩) (by norm_num)⟩)
  refine ⟨c, h1, h2, fun i n s1 k gw g hn hf hw hg => ?_⟩
  exact (h3 i n s1 k gw g 1 hn hf hw hg (.inr ⟨by simp, rfl⟩)).1 (by simp [Alone])

/-- An empty list of solutions is refused and the array is left alone: with error mode 0 the
caller gets the failure. -/
theorem boundary_empty (st : Init) (b2 : List Int) (fr dest : List ℚ) (hm : st.mode = 0) :
    boundary st [] b2 fr dest = .ok (dest, .value .fail) := by
  simp [boundary, Setters.returnHandler, hm, IRM.toInt]

/-- Before the components are known the call fails. -/
theorem boundary_unready (st : Init) (b1 : List Int) (b2 : List Int) (fr dest : List ℚ)
    (hm : st.mode = 0) (hg : st.gfw = []) (hne : b1 ≠ [])
    (hall : ∀ (i : Nat) n, b1[i]? = some n →
      ∃ s1, First st n s1 ∧ Usable s1 ∧ Good st b2 fr i s1) (hs : Sorted st.sols) :
    ∃ c, boundary st b1 b2 fr dest = .ok (c, .value .fail) := by
  obtain ⟨n, l, rfl⟩ := List.exists_cons_of_ne_nil hne
  obtain ⟨s1, f1, u1, g1⟩ := hall 0 n rfl
  have hb : Same st (fun _ => none) := fun n x _ h => by simp at h
  have ho : ∃ s2 f1 f2, Outcome st (mixture st b2 fr 0 n fun _ => none).1
      (mixture st b2 fr 0 n fun _ => none).2 s1 s2 f1 f2 := by
    cases g1 with
    | alone f ha hf h0 => exact ⟨_, _, _, mixture_alone hs hb f1 u1 (.inl ha) hf h0⟩
    | both f n2 s2 hn2 h20 hs2 hu2 hf h0 hf1 =>
      rcases lt_or_eq_of_le hf1 with h | h
      · exact ⟨_, _, _, mixture_both hs hb f1 u1 hn2 h20 hs2 hu2 hf h0 h⟩
      · exact ⟨_, _, _, mixture_alone hs hb f1 u1 (.inr h) hf (by rw [h]; norm_num)⟩
  obtain ⟨s2, x1, x2, ho⟩ := ho
  obtain ⟨s, e1, _⟩ := mix_mixed _ _ ho.parts
  have e2 : ∀ c, entry st (n :: l) b2 fr ((fun _ => none), c) 0 = .throw := by
    intro c
    unfold entry concs
    rw [idx_nat (i := 0) (show (n :: l)[0]? = some n from rfl), Out.ok_bind]
    simp only [e1, Out.ok_bind, if_pos hg, Out.throw_bind]
  refine ⟨resize dest (st.comps.length * (n :: l).length), ?_⟩
  unfold boundary
  rw [if_neg (by simp)]
  have : (List.range (n :: l).length).foldlM (entry st (n :: l) b2 fr)
      ((fun _ => none), resize dest (st.comps.length * (n :: l).length)) = .throw := by
    have hr : List.range (n :: l).length = 0 :: (List.range l.length).map Nat.succ := by
      rw [List.length_cons, List.range_succ_eq_map]
    rw [hr, List.foldlM_cons, e2, Out.throw_bind]
  simp only [this, Setters.returnHandler, hm, IRM.toInt]
  rfl

end Verif.Boundary
