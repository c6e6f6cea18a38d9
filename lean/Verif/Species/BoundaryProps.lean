import Verif.Species.BoundaryModel
import Verif.Boundary.Cases
import Verif.Getters.Props

/-! # C116: species concentrations of boundary solutions -/

namespace Verif.Species

open Verif.OMap Verif.Mixing Verif.Grid Verif.Boundary Verif.Setters

/-! ## Specification -/

/-- All species of the solution are known to the module. -/
def Known (tab : List (Int × Nat)) (s : Solution) : Prop :=
  ∀ p ∈ s.species, ∃ r, (p.1, r) ∈ tab

/-! ## Lemmas -/

theorem addAll_species_some (k : Int) (ps : List (Solution × ℚ))
    (hs : ∀ p ∈ ps, Sorted p.1.species)
    (hk : ∀ p ∈ ps, p.2 = 0 ∨ (find p.1.species k).isSome) :
    ∀ (s t : Solution), (s.massWater = 0 ∨ (find s.species k).isSome) → addAll s ps = .ok t →
      (t.massWater = 0 ∨ (find t.species k).isSome) := by
  induction ps with
  | nil => intro s t h0 h; cases h; exact h0
  | cons p ps ih =>
    intro s t h0 h
    obtain ⟨u, h1, h2⟩ := (addAll_cons _ _ _ _).mp h
    obtain ⟨_, a2⟩ := add_species h1 (hs p List.mem_cons_self) k (hk p List.mem_cons_self) h0
    exact ih (fun q hq => hs q (List.mem_cons_of_mem _ hq))
      (fun q hq => hk q (List.mem_cons_of_mem _ hq)) u t a2 h2

theorem foldl_species_sorted (f1 f2 : ℚ) (l : SMap Int ℚ) : ∀ m : SMap Int ℚ, Sorted m →
    Sorted (l.foldl (addSpecies f1 f2) m) := by
  induction l with
  | nil => exact fun m h => h
  | cons p l ih =>
    intro m h
    rw [List.foldl_cons]
    apply ih
    unfold addSpecies
    split <;> exact sorted_insert h _ _

theorem addAll_absent (k : Int) (ps : List (Solution × ℚ)) (hs : ∀ p ∈ ps, Sorted p.1.species)
    (hk : ∀ p ∈ ps, p.2 = 0 ∨ find p.1.species k = none) :
    ∀ (s t : Solution), find s.species k = none → addAll s ps = .ok t →
      find t.species k = none := by
  induction ps with
  | nil => intro s t h0 h; cases h; exact h0
  | cons p ps ih =>
    intro s t h0 h
    obtain ⟨u, h1, h2⟩ := (addAll_cons _ _ _ _).mp h
    refine ih (fun q hq => hs q (List.mem_cons_of_mem _ hq))
      (fun q hq => hk q (List.mem_cons_of_mem _ hq)) u t ?_ h2
    unfold Solution.add at h1
    split at h1
    · cases h1; exact h0
    · rename_i hx
      split at h1
      · cases h1
      · cases h1
        have := (hk p List.mem_cons_self).resolve_left hx
        simp only [foldl_species _ _ _ _ (hs p List.mem_cons_self), h0, this]

theorem addAll_sorted (ps : List (Solution × ℚ)) : ∀ (s t : Solution), Sorted s.species →
    addAll s ps = .ok t → Sorted t.species := by
  induction ps with
  | nil => intro s t h0 h; cases h; exact h0
  | cons p ps ih =>
    intro s t h0 h
    obtain ⟨u, h1, h2⟩ := (addAll_cons _ _ _ _).mp h
    refine ih u t ?_ h2
    unfold Solution.add at h1
    split at h1
    · cases h1; exact h0
    · split at h1
      · cases h1
      · cases h1
        exact foldl_species_sorted _ _ _ _ h0

/-- A property of both solutions is one of all parts that count. -/
theorem parts_of_both {st : Init} {b : Bin} {m : Mix} {s1 s2 : Solution} {f1 f2 : ℚ}
    (ho : Outcome st b m s1 s2 f1 f2) (Q : Solution → Prop) [DecidablePred Q] (h1 : Q s1)
    (h2 : Q s2) : ∀ p ∈ parts b m, p.2 = 0 ∨ Q p.1 := by
  have hz : wsum (fun a => if Q a then 0 else 1) (parts b m) = 0 := by
    rw [ho.sums]; simp [h1, h2]
  have key : ∀ ps : List (Solution × ℚ), (∀ p ∈ ps, 0 ≤ p.2) →
      0 ≤ wsum (fun a => if Q a then 0 else 1) ps ∧
      (wsum (fun a => if Q a then 0 else 1) ps = 0 → ∀ p ∈ ps, p.2 = 0 ∨ Q p.1) := by
    intro ps
    induction ps with
    | nil => intro _; rw [wsum_nil]; simp
    | cons p ps ih =>
      intro hp
      obtain ⟨i1, i2⟩ := ih (fun q hq => hp q (List.mem_cons_of_mem _ hq))
      have hp0 := hp p List.mem_cons_self
      rw [wsum_cons]
      by_cases hq : Q p.1
      · simp only [if_pos hq, mul_zero, zero_add]
        refine ⟨i1, fun h q hq' => ?_⟩
        rcases List.mem_cons.mp hq' with rfl | hq'
        · exact .inr hq
        · exact i2 h q hq'
      · simp only [if_neg hq, mul_one]
        refine ⟨by linarith, fun h q hq' => ?_⟩
        have e1 : p.2 = 0 := by linarith
        rcases List.mem_cons.mp hq' with rfl | hq'
        · exact .inl e1
        · exact i2 (by linarith) q hq'
  exact (key _ (fun p hp => (ho.parts p hp).2)).2 hz

/-- The species of the mixture of two usable solutions. -/
theorem mix_species {st : Init} {b : Bin} {m : Mix} {s1 s2 : Solution} {f1 f2 : ℚ}
    (ho : Outcome st b m s1 s2 f1 f2) (hu1 : Usable s1) (hu2 : Usable s2) :
    ∃ s, Solution.mix b m = .ok s ∧ Sorted s.species ∧
      (∀ k, find s1.species k = none → find s2.species k = none → find s.species k = none) ∧
      ∀ k c1 c2, find s1.species k = some c1 → find s2.species k = some c2 →
        find s.species k = some ((f1 * (s1.massWater * c1) + f2 * (s2.massWater * c2)) /
          (f1 * s1.massWater + f2 * s2.massWater)) := by
  obtain ⟨s, hs, hm⟩ := mix_mixed b m ho.parts
  have hs' := hs
  rw [mix_eq] at hs'
  have hsort : ∀ p ∈ parts b m, Sorted p.1.species := fun p hp => (ho.parts p hp).1.ordered.species
  have hw : s.massWater = f1 * s1.massWater + f2 * s2.massWater := by
    rw [hm.ext Solution.massWater (by simp [extensives]), ho.sums]
  have hpos : 0 < f1 * s1.massWater + f2 * s2.massWater := by
    have w1 := hu1.water
    have w2 := hu2.water
    rcases lt_or_eq_of_le ho.nn1 with h | h
    · have := mul_pos h w1; have := mul_nonneg ho.nn2 (le_of_lt w2); linarith
    · have h2 : 0 < f2 := by have := ho.pos; linarith
      have := mul_nonneg ho.nn1 (le_of_lt w1); have := mul_pos h2 w2; linarith
  refine ⟨s, hs, addAll_sorted _ Solution.zero _ List.Pairwise.nil hs', ?_, ?_⟩
  · intro k h1 h2
    exact addAll_absent k _ hsort (parts_of_both ho (fun a => find a.species k = none) h1 h2)
      _ _ rfl hs'
  · intro k c1 c2 h1 h2
    have hk := parts_of_both ho (fun a => (find a.species k).isSome = true) (by simp [h1])
      (by simp [h2])
    have e1 := addAll_species k _ hsort hk Solution.zero s (.inl rfl) hs'
    have e2 := addAll_species_some k _ hsort hk Solution.zero s (.inl rfl) hs'
    rw [ho.sums] at e1
    obtain ⟨c, hc⟩ := Option.isSome_iff_exists.mp (e2.resolve_left (by rw [hw]; exact ne_of_gt hpos))
    simp only [speciesOf, hc, h1, h2, Option.elim_some, id_eq] at e1
    have e3 : Solution.zero.massWater = 0 := rfl
    rw [hw, e3, zero_mul, zero_add] at e1
    rw [hc, Option.some.injEq, eq_div_iff (ne_of_gt hpos), mul_comm]
    exact e1

theorem find_iff {s : SMap Int ℚ} (hs : Sorted s) {k : Int} {a : ℚ} (h : Getters.Amount s k a) :
    a = (match find s k with | some c => c | none => 0) := by
  rcases h with h | ⟨rfl, h⟩
  · rw [find_of_mem hs h]
  · have : find s k = none := by
      rw [find_eq_none_iff]
      intro hk
      obtain ⟨p, hp, e⟩ := List.mem_map.mp hk
      exact h p hp e
    rw [this]

/-- Entries of a mixture as they are written. -/
theorem row_spec {st : Init} {nsp : Nat} {tab : List (Int × Nat)} (ht : Getters.GoodTable nsp tab)
    {b : Bin} {m : Mix} {s1 s2 : Solution} {f1 f2 : ℚ}
    (ho : Outcome st b m s1 s2 f1 f2) (hu1 : Usable s1) (hu2 : Usable s2) (hk1 : Known tab s1)
    (hk2 : Known tab s2) :
    ∃ s d, Solution.mix b m = .ok s ∧ Getters.speciesRow nsp tab s.species = .ok d ∧
      d.length = nsp ∧
      (∀ k r, (k, r) ∈ tab → find s1.species k = none → find s2.species k = none →
        d[r]? = some 0) ∧
      ∀ k r c1 c2, (k, r) ∈ tab → find s1.species k = some c1 → find s2.species k = some c2 →
        d[r]? = some ((f1 * (s1.massWater * c1) + f2 * (s2.massWater * c2)) /
          (f1 * s1.massWater + f2 * s2.massWater)) := by
  obtain ⟨s, hs, hsort, h1, h2⟩ := mix_species ho hu1 hu2
  have hmem : ∀ p ∈ s.species, ∃ r, (p.1, r) ∈ tab := by
    intro p hp
    by_cases n1 : find s1.species p.1 = none
    · by_cases n2 : find s2.species p.1 = none
      · have := h1 _ n1 n2
        rw [find_of_mem hsort hp] at this; cases this
      · obtain ⟨c, hc⟩ := Option.ne_none_iff_exists'.mp n2
        exact hk2 (p.1, c) (mem_of_find hc)
    · obtain ⟨c, hc⟩ := Option.ne_none_iff_exists'.mp n1
      exact hk1 (p.1, c) (mem_of_find hc)
  obtain ⟨d, d1, d2, d3⟩ := Getters.species_right_partial ht s.species
    (List.pairwise_map.mpr (hsort.imp (fun h => ne_of_lt h))) hmem
  refine ⟨s, d, hs, d1, d2, ?_, ?_⟩
  · intro k r hr n1 n2
    obtain ⟨a, a1, a2⟩ := d3 k r hr
    rw [a2, find_iff hsort a1, h1 k n1 n2]
  · intro k r c1 c2 hr n1 n2
    obtain ⟨a, a1, a2⟩ := d3 k r hr
    rw [a2, find_iff hsort a1, h2 k c1 c2 n1 n2]

/-- Values an entry must have. -/
def Right (st : Init) (tab : List (Int × Nat)) (nb : Nat) (b2 : List Int) (fr c : List ℚ) (i : Nat)
    (s1 : Solution) : Prop :=
  ∀ (k : Int) (r : Nat) (f : ℚ), (k, r) ∈ tab → Fraction fr i f →
    (Alone b2 i → ∃ a, Getters.Amount s1.species k a ∧ c[nb * r + i]? = some a) ∧
    ∀ n2 s2, b2[i]? = some n2 → 0 ≤ n2 → find st.sols n2 = some s2 →
      (find s1.species k = none → find s2.species k = none → c[nb * r + i]? = some 0) ∧
      ∀ c1 c2, find s1.species k = some c1 → find s2.species k = some c2 →
        c[nb * r + i]? = some ((f * (s1.massWater * c1) + (1 - f) * (s2.massWater * c2)) /
          (f * s1.massWater + (1 - f) * s2.massWater))

theorem entrySp_spec {st : Init} {nsp : Nat} {tab : List (Int × Nat)}
    (hsol : Sorted st.sols) (ht : Getters.GoodTable nsp tab) {b1 b2 : List Int}
    {fr : List ℚ} {b : Bin} {c : List ℚ} {i : Nat} {n : Int} {s1 : Solution}
    (hb : Same st b) (hc : c.length = nsp * b1.length) (hn : b1[i]? = some n)
    (h1 : First st n s1) (hu : Usable s1) (hg : Good st b2 fr i s1) (hk1 : Known tab s1)
    (hk2 : ∀ n2 s2, b2[i]? = some n2 → find st.sols n2 = some s2 → Known tab s2) :
    ∃ b' c', entrySp st nsp tab b1 b2 fr (b, c) i = .ok (b', c') ∧ Same st b' ∧
      c'.length = c.length ∧
      (∀ i' k, i' < b1.length → k < nsp → i' ≠ i →
        c'[b1.length * k + i']? = c[b1.length * k + i']?) ∧
      Right st tab b1.length b2 fr c' i s1 := by
  have hi : i < b1.length := (List.getElem?_eq_some_iff.mp hn).1
  have run : ∀ s2 f1 f2, Usable s2 → Known tab s2 → Outcome st (mixture st b2 fr i n b).1
      (mixture st b2 fr i n b).2 s1 s2 f1 f2 →
      ∃ c', entrySp st nsp tab b1 b2 fr (b, c) i = .ok ((mixture st b2 fr i n b).1, c') ∧
        c'.length = c.length ∧
        (∀ i' k, i' < b1.length → k < nsp → i' ≠ i →
          c'[b1.length * k + i']? = c[b1.length * k + i']?) ∧
        ∀ k r, (k, r) ∈ tab →
          (find s1.species k = none → find s2.species k = none →
            c'[b1.length * r + i]? = some 0) ∧
          ∀ c1 c2, find s1.species k = some c1 → find s2.species k = some c2 →
            c'[b1.length * r + i]? =
              some ((f1 * (s1.massWater * c1) + f2 * (s2.massWater * c2)) /
                (f1 * s1.massWater + f2 * s2.massWater)) := by
    intro s2 f1 f2 hu2 hk2 ho
    obtain ⟨s, d, d0, d1, d2, d3, d4⟩ := row_spec ht ho hu hu2 hk1 hk2
    obtain ⟨c', e1, e2, e3⟩ := writeComps_spec b1.length nsp i d c hi (le_of_eq d2.symm)
      nsp (le_refl _) (by rw [hc]; ring)
    refine ⟨c', ?_, e2, ?_, ?_⟩
    · unfold entrySp
      rw [idx_nat hn, Out.ok_bind]
      simp only [d0, d1, Out.ok_bind]
      unfold writeComps
      rw [e1]
      rfl
    · intro i' k hi' hk hne
      rw [e3 i' k hi' hk, if_neg (fun h => hne h.1)]
    · intro k r hr
      have hrl : r < nsp := ht.lt _ hr
      rw [e3 i r hi hrl, if_pos ⟨rfl, hrl⟩]
      exact ⟨d3 k r hr, fun c1 c2 => d4 k r c1 c2 hr⟩
  have fu : ∀ {f f' : ℚ}, Fraction fr i f → Fraction fr i f' → f = f' := by
    rintro f f' (h | ⟨h, e⟩) (h' | ⟨h', e'⟩)
    · rw [h] at h'; cases h'; rfl
    · rw [h] at h'; cases h'
    · rw [h] at h'; cases h'
    · rw [e, e']
  cases hg with
  | alone f ha hf h0 =>
    have ho := mixture_alone hsol hb h1 hu (.inl ha) hf h0
    obtain ⟨c', r1, r2, r3, r4⟩ := run s1 f 0 hu hk1 ho
    refine ⟨_, c', r1, ho.same, r2, r3, fun k r f' hr hf' => ⟨fun _ => ?_, ?_⟩⟩
    · obtain ⟨q1, q2⟩ := r4 k r hr
      cases hfk : find s1.species k with
      | none =>
        refine ⟨0, .inr ⟨rfl, fun p hp e => ?_⟩, q1 hfk hfk⟩
        rw [find_eq_none_iff] at hfk
        exact hfk (List.mem_map.mpr ⟨p, hp, e⟩)
      | some a =>
        refine ⟨a, .inl (mem_of_find hfk), ?_⟩
        rw [q2 a a hfk hfk]
        have w := ne_of_gt hu.water
        have f0 := ne_of_gt h0
        rw [zero_mul, zero_mul, add_zero, add_zero]
        congr 1
        field_simp
    · intro n2 s2 hn2 h20 _
      have := ha n2 hn2
      omega
  | both f n2 s2 hn2 h20 hs2 hu2 hf h0 hf1 =>
    have ho : Outcome st (mixture st b2 fr i n b).1 (mixture st b2 fr i n b).2 s1 s2 f (1 - f) := by
      rcases lt_or_eq_of_le hf1 with h | h
      · exact mixture_both hsol hb h1 hu hn2 h20 hs2 hu2 hf h0 h
      · have ho := mixture_alone hsol (b2 := b2) hb h1 hu (.inr h) hf (by rw [h]; norm_num)
        refine ⟨ho.same, ho.parts, fun X => ?_, by rw [h]; norm_num, h0, by rw [h]; norm_num⟩
        rw [ho.sums, h]; ring
    obtain ⟨c', r1, r2, r3, r4⟩ := run s2 f (1 - f) hu2 (hk2 n2 s2 hn2 hs2) ho
    refine ⟨_, c', r1, ho.same, r2, r3, fun k r f' hr hf' => ⟨fun ha => ?_, ?_⟩⟩
    · have := ha n2 hn2
      omega
    · intro n2' s2' hn2' h20' hs2'
      rw [hn2] at hn2'; cases hn2'
      rw [hs2] at hs2'; cases hs2'
      rw [fu hf' hf]
      exact r4 k r hr

/-! ## Theorems -/

/-- What is true of `InitialPhreeqc2SpeciesConcentrations` for entries whose solutions exist, are
usable and hold only species the module knows. Without a second solution the value of a species is
its concentration in the first, zero if it is not there. With a second one it is the mean weighted
by the water taken of each, if both or none of the solutions have the species. Nothing is said of
species that only one of the two has (`one_sided_violated`). -/
theorem boundarySp_partial (st : Init) (hsol : Sorted st.sols) (nsp : Nat)
    (tab : List (Int × Nat)) (ht : Getters.GoodTable nsp tab) (h0 : 0 < nsp) (b1 b2 : List Int)
    (fr dest : List ℚ) (hne : b1 ≠ [])
    (hall : ∀ (i : Nat) n, b1[i]? = some n →
      ∃ s1, First st n s1 ∧ Usable s1 ∧ Good st b2 fr i s1 ∧ Known tab s1 ∧
        ∀ n2 s2, b2[i]? = some n2 → find st.sols n2 = some s2 → Known tab s2) :
    ∃ c, boundarySp st nsp tab b1 b2 fr dest = .ok (c, .value .ok) ∧
      c.length = nsp * b1.length ∧
      ∀ (i : Nat) (n : Int) (s1 : Solution), b1[i]? = some n → First st n s1 →
        Right st tab b1.length b2 fr c i s1 := by
  have loop : ∀ m, m ≤ b1.length → ∀ c0 : List ℚ, c0.length = nsp * b1.length →
      ∃ b c, (List.range m).foldlM (entrySp st nsp tab b1 b2 fr) ((fun _ => none), c0) =
          .ok (b, c) ∧
        Same st b ∧ c.length = c0.length ∧
        ∀ (i : Nat) (n : Int) (s1 : Solution), i < m → b1[i]? = some n → First st n s1 →
          Right st tab b1.length b2 fr c i s1 := by
    intro m
    induction m with
    | zero =>
      intro _ c0 h0
      exact ⟨_, c0, rfl, fun n x _ h => by simp at h, rfl, fun i _ _ h => by omega⟩
    | succ m ih =>
      intro hm c0 h0
      obtain ⟨b, c, r1, r2, r3, r4⟩ := ih (by omega) c0 h0
      have hn := List.getElem?_eq_getElem (show m < b1.length by omega)
      obtain ⟨s1, f1, u1, g1, k1, k2⟩ := hall m _ hn
      obtain ⟨b', c', e1, e2, e3, e4, e5⟩ := entrySp_spec hsol ht r2 (r3.trans h0) hn f1 u1 g1 k1 k2
      refine ⟨b', c', ?_, e2, e3.trans r3, ?_⟩
      · rw [List.range_succ, List.foldlM_append, r1]
        simp only [Out.ok_bind, List.foldlM_cons, List.foldlM_nil, e1]
        rfl
      · intro i n s hi hn' hf
        by_cases h : i = m
        · subst h
          rw [hn] at hn'; cases hn'
          have : s = s1 := by
            have a := (resolve_first hsol hf).2
            rw [(resolve_first hsol f1).2] at a
            cases a; rfl
          rw [this]
          exact e5
        · intro k r f hr hfr
          rw [e4 i r (by omega) (ht.lt _ hr) h]
          exact r4 i n s (by omega) hn' hf k r f hr hfr
  have hres : (resize dest (nsp * b1.length)).length = nsp * b1.length := by
    unfold resize
    simp only [List.length_append, List.length_take, List.length_replicate, min_def]
    split_ifs <;> omega
  obtain ⟨b, c, r1, _, r3, r4⟩ := loop b1.length (le_refl _) _ hres
  refine ⟨c, ?_, r3.trans hres, ?_⟩
  · unfold boundarySp
    rw [if_pos ⟨List.length_pos_of_ne_nil hne, h0⟩, r1]
    rfl
  · intro i n s1 hn
    exact r4 i n s1 (List.getElem?_eq_some_iff.mp hn).1 hn

/-- The overload without mixing gives the species of the solutions, whatever was in the array. -/
theorem boundarySpSimple_partial (st : Init) (hsol : Sorted st.sols) (nsp : Nat)
    (tab : List (Int × Nat)) (ht : Getters.GoodTable nsp tab) (h0 : 0 < nsp) (b1 : List Int)
    (dest : List ℚ) (hne : b1 ≠ [])
    (hall : ∀ (i : Nat) n, b1[i]? = some n → ∃ s1, First st n s1 ∧ Usable s1 ∧ Known tab s1) :
    ∃ c, boundarySpSimple st nsp tab b1 dest = .ok (c, .value .ok) ∧
      c.length = nsp * b1.length ∧
      ∀ (i : Nat) (n : Int) (s1 : Solution) (k : Int) (r : Nat), b1[i]? = some n →
        First st n s1 → (k, r) ∈ tab →
        ∃ a, Getters.Amount s1.species k a ∧ c[b1.length * r + i]? = some a := by
  obtain ⟨c, h1, h2, h3⟩ := boundarySp_partial st hsol nsp tab ht h0 b1 [] [] dest hne
    (fun i n hn => by
      obtain ⟨s1, a, b, k⟩ := hall i n hn
      exact ⟨s1, a, b, .alone 1 (by simp [Alone]) (.inr ⟨by simp, rfl⟩) (by norm_num), k,
        by simp⟩)
  exact ⟨c, h1, h2, fun i n s1 k r hn hf hr =>
    (h3 i n s1 hn hf k r 1 hr (.inr ⟨by simp, rfl⟩)).1 (by simp [Alone])⟩

/-- An empty list of solutions, or no species, is refused and the array is left alone. -/
theorem boundarySp_refused (st : Init) (nsp : Nat) (tab : List (Int × Nat)) (b1 b2 : List Int)
    (fr dest : List ℚ) (hm : st.mode = 0) (h : b1 = [] ∨ nsp = 0) :
    boundarySp st nsp tab b1 b2 fr dest = .ok (dest, .value .fail) := by
  unfold boundarySp
  rw [if_neg (by rcases h with rfl | rfl <;> simp)]
  simp [Setters.returnHandler, hm, IRM.toInt]

/-! ## Cases -/

/-- Two solutions with equal water; the second lacks species 9. -/
def first : Solution := { river with species := [(7, 2), (9, 4)] }
def second : Solution := { river with massWater := 3, species := [(7, 6)] }

def demoSp : Init := { demo with sols := [(1, first), (2, second)], mixes := [] }

/-- A case of the theorem: half of each, weighted by water 1 : 3. -/
example : boundarySp demoSp 2 [(7, 0), (9, 1)] [1, 1] [-1, 2] [1, 1/2] [] =
    .ok ([2, 5, 4, 4], .value .ok) := by decide +kernel

example : Getters.GoodTable 2 [(7, 0), (9, 1)] := ⟨by decide, by decide, by decide⟩

theorem first_usable : Usable first :=
  ⟨⟨river_usable.ordered.totals, river_usable.ordered.isotopes, by simp [first, Sorted]⟩,
    river_usable.names, river_usable.water, river_usable.vol, river_usable.dens⟩

theorem second_usable : Usable second :=
  ⟨⟨river_usable.ordered.totals, river_usable.ordered.isotopes, by simp [second, Sorted]⟩,
    river_usable.names, by simp [second], river_usable.vol, river_usable.dens⟩

/-- The premises of `boundarySp_partial` for these entries. -/
example : ∀ (i : Nat) n, [1, (1 : Int)][i]? = some n →
    ∃ s1, First demoSp n s1 ∧ Usable s1 ∧ Good demoSp [-1, 2] [1, 1/2] i s1 ∧
      Known [(7, 0), (9, 1)] s1 ∧
      ∀ n2 s2, [-1, (2 : Int)][i]? = some n2 → find demoSp.sols n2 = some s2 →
        Known [(7, 0), (9, 1)] s2 := by
  have kf : Known [(7, 0), (9, 1)] first := by
    intro p hp
    simp only [first, List.mem_cons, List.not_mem_nil, or_false] at hp
    rcases hp with rfl | rfl
    · exact ⟨0, by decide⟩
    · exact ⟨1, by decide⟩
  have ks : Known [(7, 0), (9, 1)] second := by
    intro p hp
    simp only [second, List.mem_cons, List.not_mem_nil, or_false] at hp
    subst hp
    exact ⟨0, by decide⟩
  intro i n h
  match i, h with
  | 0, h =>
    cases h
    refine ⟨first, .inl ⟨by decide, rfl⟩, first_usable,
      .alone 1 (by intro n h; cases h; decide) (.inl rfl) (by norm_num), kf, ?_⟩
    intro n2 s2 h1 h2
    cases h1
    simp [demoSp, find] at h2
  | 1, h =>
    cases h
    refine ⟨first, .inl ⟨by decide, rfl⟩, first_usable,
      .both (1 / 2) 2 second rfl (by decide) rfl second_usable (.inl rfl)
        (by norm_num) (by norm_num), kf, ?_⟩
    intro n2 s2 h1 h2
    cases h1
    cases h2
    exact ks
  | n + 2, h => simp at h

/-- A species that only the first solution has keeps its concentration in the mixture: a quarter
of the water of a mixture has 4, the rest none, and the result is 4 instead of 1. -/
theorem one_sided_violated : ∃ c, boundarySp demoSp 2 [(7, 0), (9, 1)] [1] [2] [1/2] [] =
      .ok (c, .value .ok) ∧ c[1]? = some 4 ∧
    ((1/2) * (first.massWater * speciesOf 9 first) + (1/2) * (second.massWater * speciesOf 9 second)) /
      ((1/2) * first.massWater + (1/2) * second.massWater) = 1 := by
  refine ⟨[5, 4], by decide +kernel, rfl, by decide +kernel⟩

/-- A species the module does not know overwrites the value of species 0. -/
theorem unknown_species_violated :
    boundarySp demoSp 1 [(7, 0)] [1] [] [] [] = .ok ([4], .value .ok) ∧
    speciesOf 7 first = 2 := by
  refine ⟨by decide +kernel, by decide +kernel⟩

/-- A first solution that does not exist is not reported: the values are zero and the call
succeeds. -/
theorem missing_sp_violated : find demoSp.sols 5 = none ∧
    boundarySp demoSp 2 [(7, 0), (9, 1)] [5] [] [] [] = .ok ([0, 0], .value .ok) := by
  refine ⟨rfl, by decide +kernel⟩

end Verif.Species
