import Verif.Mixing.SolutionLemmas

/-! # C50, C75, C76: mixed solutions -/

namespace Verif.Mixing

open Verif.OMap Verif.NameDouble

/-- C50, extensive members. For every set of solutions, every mixture and factors of any sign
for which there is a result: water, volume, hydrogen, oxygen, charge, alkalinity, every
element and the moles of every isotope add up. -/
theorem mix_extensive (sols : Int → Option Solution) (m : Mix) (s : Solution)
    (ho : ∀ n a, sols n = some a → a.Ordered) (h : Solution.mix sols m = .ok s) :
    (∀ X ∈ extensives, X s = wsum X (parts sols m)) ∧
    (∀ k, val s.totals k = wsum (fun a => val a.totals k) (parts sols m)) ∧
    (∀ k, isotopeTotal k s = wsum (isotopeTotal k) (parts sols m)) := by
  rw [mix_eq] at h
  have hp : ∀ p ∈ parts sols m, p.1.Ordered := by
    intro p hp
    obtain ⟨q, _, hq⟩ := List.mem_filterMap.mp hp
    obtain ⟨a, ha, rfl⟩ := Option.map_eq_some_iff.mp hq
    exact ho _ _ ha
  refine ⟨fun X hX => ?_, fun k => ?_, fun k => ?_⟩
  · have := addAll_sum X (fun _ => True) (fun s a t x _ h => add_extensive h X hX) _
      (fun _ _ => trivial) _ _ h
    rw [this]
    simp only [extensives, List.mem_cons, List.not_mem_nil, or_false] at hX
    rcases hX with rfl | rfl | rfl | rfl | rfl | rfl <;> simp [Solution.zero]
  · have := addAll_sum (fun a => val a.totals k) Solution.Ordered
      (fun s a t x ho h => add_totals h ho.totals k) _ hp _ _ h
    rw [this]
    simp [Solution.zero, val, find]
  · have := addAll_sum (isotopeTotal k) Solution.Ordered
      (fun s a t x ho h => add_isotopes h ho.isotopes k) _ hp _ _ h
    rw [this]
    simp [Solution.zero, isotopeTotal, find]

/-- C50, intensive members. Whatever the signs of the factors: if there is a result and some
factor is not zero, every intensive member is the mean weighted by the mass of water. -/
theorem mix_intensive (sols : Int → Option Solution) (m : Mix) (s : Solution)
    (h : Solution.mix sols m = .ok s) (hne : ∃ p ∈ parts sols m, p.2 ≠ 0) :
    ∀ X ∈ intensives, X s = waterMean X (parts sols m) := by
  intro X hX
  rw [mix_eq] at h
  have h1 := addAll_mean X hX _ _ _ h
  have h2 := addAll_sum Solution.massWater (fun _ => True)
    (fun s a t x _ h => add_extensive h _ (by simp [extensives])) _ (fun _ _ => trivial) _ _ h
  have h3 := addAll_mass_ne _ _ _ (Or.inr hne) h
  have z : Solution.zero.massWater = 0 := rfl
  rw [z, zero_mul, zero_add] at h1
  rw [z, zero_add] at h2
  unfold waterMean
  rw [← h1, ← h2]
  field_simp

/-- C50. For every list of solutions with positive water masses and positive factors: the
mixing succeeds, and every intensive member of the mixture is at least any lower bound and at
most any upper bound of the parts. -/
theorem mix_between (sols : Int → Option Solution) (m : Mix) (hne : parts sols m ≠ [])
    (hp : ∀ p ∈ parts sols m, 0 < p.1.massWater ∧ 0 < p.2) :
    ∃ s, Solution.mix sols m = .ok s ∧ 0 < s.massWater ∧ ∀ X ∈ intensives,
      (∀ lo, (∀ p ∈ parts sols m, lo ≤ X p.1) → lo ≤ X s) ∧
      (∀ hi, (∀ p ∈ parts sols m, X p.1 ≤ hi) → X s ≤ hi) := by
  obtain ⟨s, hs⟩ := addAll_exists (parts sols m) (fun p h => ⟨(hp p h).1, le_of_lt (hp p h).2⟩)
    Solution.zero (le_refl _)
  rw [← mix_eq] at hs
  obtain ⟨p0, hp0⟩ := List.exists_mem_of_ne_nil _ hne
  have hX := mix_intensive sols m s hs ⟨p0, hp0, ne_of_gt (hp p0 hp0).2⟩
  have hw : 0 < wsum Solution.massWater (parts sols m) := by
    unfold wsum
    refine List.sum_pos _ ?_ ?_
    · intro x hx
      obtain ⟨p, hpm, rfl⟩ := List.mem_map.mp hx
      exact mul_pos (hp p hpm).2 (hp p hpm).1
    · simpa using hne
  have hmass : s.massWater = wsum Solution.massWater (parts sols m) := by
    have h2 := addAll_sum Solution.massWater (fun _ => True)
      (fun s a t x _ h => add_extensive h _ (by simp [extensives])) _ (fun _ _ => trivial) _ _
      ((mix_eq sols m).symm.trans hs)
    rw [h2]; simp [Solution.zero]
  refine ⟨s, hs, hmass ▸ hw, fun X hXm => ⟨fun lo hlo => ?_, fun hi hhi => ?_⟩⟩
  · rw [hX X hXm, waterMean, le_div_iff₀ hw, mul_comm, ← wsum_const_mul]
    refine wsum_mono _ _ _ fun p hpm => ?_
    exact mul_le_mul_of_nonneg_left
      (mul_le_mul_of_nonneg_left (hlo p hpm) (le_of_lt (hp p hpm).1)) (le_of_lt (hp p hpm).2)
  · rw [hX X hXm, waterMean, div_le_iff₀ hw, mul_comm, ← wsum_const_mul]
    refine wsum_mono _ _ _ fun p hpm => ?_
    exact mul_le_mul_of_nonneg_left
      (mul_le_mul_of_nonneg_left (hhi p hpm) (le_of_lt (hp p hpm).1)) (le_of_lt (hp p hpm).2)

/-- C50. Two mixtures of the same parts in any order, under any numbers: the same extensive and
intensive members and the same moles of every element. -/
theorem mix_order (sols sols' : Int → Option Solution) (m m' : Mix) (s s' : Solution)
    (ho : ∀ n a, sols n = some a → a.Ordered) (ho' : ∀ n a, sols' n = some a → a.Ordered)
    (h : Solution.mix sols m = .ok s) (h' : Solution.mix sols' m' = .ok s')
    (hperm : (parts sols m).Perm (parts sols' m')) (hne : ∃ p ∈ parts sols m, p.2 ≠ 0) :
    (∀ X ∈ extensives, X s = X s') ∧ (∀ X ∈ intensives, X s = X s') ∧
    (∀ k, val s.totals k = val s'.totals k) := by
  obtain ⟨a1, a2, _⟩ := mix_extensive sols m s ho h
  obtain ⟨b1, b2, _⟩ := mix_extensive sols' m' s' ho' h'
  obtain ⟨p, hp, hp0⟩ := hne
  have c1 := mix_intensive sols m s h ⟨p, hp, hp0⟩
  have c2 := mix_intensive sols' m' s' h' ⟨p, hperm.mem_iff.mp hp, hp0⟩
  refine ⟨fun X hX => ?_, fun X hX => ?_, fun k => ?_⟩
  · rw [a1 X hX, b1 X hX]; exact wsum_perm _ hperm
  · rw [c1 X hX, c2 X hX, waterMean, waterMean, wsum_perm _ hperm, wsum_perm _ hperm]
  · rw [a2, b2]; exact wsum_perm _ hperm

/-- C75. What holds: a species that every part contains has the weighted mean of its
concentrations. The full claim is that this holds for every species, a part without it
counting as zero (`species_mix_violated`). -/
theorem species_mix_partial (sols : Int → Option Solution) (m : Mix) (s : Solution) (k : Int)
    (ho : ∀ n a, sols n = some a → a.Ordered) (h : Solution.mix sols m = .ok s)
    (hne : ∃ p ∈ parts sols m, p.2 ≠ 0)
    (hk : ∀ p ∈ parts sols m, p.2 = 0 ∨ (find p.1.species k).isSome) :
    speciesOf k s = waterMean (speciesOf k) (parts sols m) := by
  rw [mix_eq] at h
  have hp : ∀ p ∈ parts sols m, Sorted p.1.species := by
    intro p hp
    obtain ⟨q, _, hq⟩ := List.mem_filterMap.mp hp
    obtain ⟨a, ha, rfl⟩ := Option.map_eq_some_iff.mp hq
    exact (ho _ _ ha).species
  have h1 := addAll_species k _ hp hk _ _ (Or.inl rfl) h
  have h2 := addAll_sum Solution.massWater (fun _ => True)
    (fun s a t x _ h => add_extensive h _ (by simp [extensives])) _ (fun _ _ => trivial) _ _ h
  have h3 := addAll_mass_ne _ _ _ (Or.inr hne) h
  have z : Solution.zero.massWater = 0 := rfl
  rw [z, zero_mul, zero_add] at h1
  rw [z, zero_add] at h2
  unfold waterMean
  rw [← h1, ← h2]
  field_simp

/-! ## Concrete solutions -/

/-- One kilogram of water at 20 °C with species 5. -/
def demo1 : Solution :=
  { Solution.zero with tc := 20, ph := 7, massWater := 1, solnVol := 1
                       totals := [("Ca".toList, 1 / 100)], species := [(5, 1 / 100)]
                       isotopes := [("13C".toList, ⟨2, 10⟩)] }

/-- Three kilograms of water at 10 °C with species 6 instead. -/
def demo2 : Solution :=
  { Solution.zero with tc := 10, ph := 8, massWater := 3, solnVol := 3
                       totals := [("Na".toList, 3 / 100)], species := [(6, 1 / 50)]
                       isotopes := [("13C".toList, ⟨6, 10⟩)] }

/-- Solutions 1 and 2. -/
def demoSols (n : Int) : Option Solution :=
  if n = 1 then some demo1 else if n = 2 then some demo2 else none

theorem demo_ordered : ∀ n a, demoSols n = some a → a.Ordered := by
  intro n a h
  unfold demoSols at h
  split at h
  · cases h; exact ⟨by simp [demo1, Sorted], by simp [demo1, Sorted], by simp [demo1, Sorted]⟩
  · split at h
    · cases h; exact ⟨by simp [demo2, Sorted], by simp [demo2, Sorted], by simp [demo2, Sorted]⟩
    · cases h

/-- The premises of the theorems above are met: equal parts of two solutions. -/
example : parts demoSols [(1, 1 / 2), (2, 1 / 2)] = [(demo1, 1 / 2), (demo2, 1 / 2)] ∧
    0 < demo1.massWater ∧ 0 < demo2.massWater := by decide +kernel

/-- That mixture. -/
def demoMixed : Solution :=
  { Solution.zero with tc := 25 / 2, ph := 31 / 4, massWater := 2, solnVol := 2
                       totals := [("Ca".toList, 1 / 200), ("Na".toList, 3 / 200)]
                       species := [(5, 1 / 100), (6, 1 / 50)]
                       isotopes := [("13C".toList, ⟨4, 35 / 2⟩)] }

theorem demo_mix : Solution.mix demoSols [(1, 1 / 2), (2, 1 / 2)] = .ok demoMixed := by
  decide +kernel

/-- C75, the code. A species that only one of two boundary solutions contains keeps its full
concentration in the mixture, or the share of the other parts is not taken off: with half of
each solution, species 6 has 1/50 where the weighted mean is 3/200, and species 5 has 1/100
where it is 1/400. -/
theorem species_mix_violated :
    ∃ s, Solution.mix demoSols [(1, 1 / 2), (2, 1 / 2)] = .ok s ∧
      speciesOf 6 s = 1 / 50 ∧
      waterMean (speciesOf 6) (parts demoSols [(1, 1 / 2), (2, 1 / 2)]) = 3 / 200 ∧
      speciesOf 5 s = 1 / 100 ∧
      waterMean (speciesOf 5) (parts demoSols [(1, 1 / 2), (2, 1 / 2)]) = 1 / 400 :=
  ⟨demoMixed, demo_mix, by decide +kernel, by decide +kernel, by decide +kernel, by decide +kernel⟩

/-- Ratio of an isotope. -/
def isotopeRatio (k : Name) (s : Solution) : Option ℚ := (find s.isotopes k).map Isotope.ratio

/-- C76, the code. Two solutions with the same isotope ratio 10 give a mixture with ratio
35/2. -/
theorem isotope_ratio_violated :
    ∃ s, Solution.mix demoSols [(1, 1 / 2), (2, 1 / 2)] = .ok s ∧
      isotopeRatio "13C".toList demo1 = some 10 ∧ isotopeRatio "13C".toList demo2 = some 10 ∧
      isotopeRatio "13C".toList s = some (35 / 2) :=
  ⟨demoMixed, demo_mix, by decide +kernel, by decide +kernel, by decide +kernel⟩

/-- C76. What holds: with a single part the ratios are those of the part. -/
theorem isotope_ratio_partial (sols : Int → Option Solution) (n : Int) (a s : Solution) (x : ℚ)
    (hx : x ≠ 0) (ho : a.Ordered) (hn : sols n = some a)
    (h : Solution.mix sols [(n, x)] = .ok s) (k : Name) :
    isotopeRatio k s = isotopeRatio k a := by
  rw [mix_eq, parts] at h
  simp only [List.filterMap_cons, hn, Option.map_some, List.filterMap_nil] at h
  obtain ⟨u, h1, h2⟩ := (addAll_cons _ _ _ _).mp h
  cases h2
  unfold Solution.add at h1
  rw [if_neg hx] at h1
  split at h1
  · cases h1
  · cases h1
    unfold isotopeRatio
    simp only [Solution.zero]
    have key : ∀ (f2 : ℚ) (l m : SMap Name Isotope), Sorted l → (∀ p ∈ l, find m p.1 = none) →
        (find (l.foldl (addIsotope f2 x) m) k).map Isotope.ratio =
          ((find l k).map Isotope.ratio).or ((find m k).map Isotope.ratio) := by
      intro f2 l
      induction l with
      | nil => intro m _ _; simp [find]
      | cons p l ih =>
        intro m hs hm
        obtain ⟨b, i⟩ := p
        have e0 : addIsotope f2 x m (b, i) = OMap.insert m b ⟨i.total * x, i.ratio⟩ := by
          unfold addIsotope
          rw [hm (b, i) List.mem_cons_self]
        rw [List.foldl_cons, e0, ih _ (List.pairwise_cons.mp hs).2]
        · rw [find_insert]
          simp only [find]
          by_cases e : k = b
          · subst e; simp [sorted_head hs]
          · simp [e]
        · intro q hq
          rw [find_insert]
          have : b < q.1 := (List.pairwise_cons.mp hs).1 q hq
          rw [if_neg (ne_of_gt this)]
          exact hm q (List.mem_cons_of_mem _ hq)
    rw [key _ _ _ ho.isotopes (fun _ _ => rfl)]
    simp [find]

end Verif.Mixing
