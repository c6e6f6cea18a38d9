import Verif.Mixing.SolutionSpec
import Verif.NameDouble.Props
import Mathlib.Tactic.Linarith
import Mathlib.Tactic.FieldSimp
import Mathlib.Tactic.Ring
import Mathlib.Algebra.Order.BigOperators.Group.List

/-! # Lemmas on mixed solutions -/

namespace Verif.Mixing

open Verif.OMap Verif.NameDouble

theorem wsum_nil {E : Type} (X : E → ℚ) : wsum X [] = 0 := rfl

theorem wsum_cons {E : Type} (X : E → ℚ) (p : E × ℚ) (ps : List (E × ℚ)) :
    wsum X (p :: ps) = p.2 * X p.1 + wsum X ps := by simp [wsum]

theorem wsum_append {E : Type} (X : E → ℚ) (ps qs : List (E × ℚ)) :
    wsum X (ps ++ qs) = wsum X ps + wsum X qs := by simp [wsum]

theorem wsum_perm {E : Type} (X : E → ℚ) {ps qs : List (E × ℚ)} (h : ps.Perm qs) :
    wsum X ps = wsum X qs := (h.map _).sum_eq

theorem wsum_mono {E : Type} (X Y : E → ℚ) (ps : List (E × ℚ))
    (h : ∀ p ∈ ps, p.2 * X p.1 ≤ p.2 * Y p.1) : wsum X ps ≤ wsum Y ps :=
  List.sum_le_sum h

theorem wsum_const_mul {E : Type} (c : ℚ) (X : E → ℚ) (ps : List (E × ℚ)) :
    wsum (fun a => X a * c) ps = wsum X ps * c := by
  induction ps with
  | nil => simp [wsum]
  | cons p ps ih => rw [wsum_cons, wsum_cons, ih]; ring

/-- Adding the parts one after another. -/
def addAll (s : Solution) (ps : List (Solution × ℚ)) : Out Solution :=
  ps.foldlM (fun s p => s.add p.1 p.2) s

theorem mix_eq (sols : Int → Option Solution) (m : Mix) :
    Solution.mix sols m = addAll Solution.zero (parts sols m) := by
  unfold Solution.mix addAll
  generalize Solution.zero = s
  induction m generalizing s with
  | nil => rfl
  | cons p m ih =>
    simp only [List.foldlM_cons, Solution.mixStep, parts, List.filterMap_cons]
    cases h : sols p.1 with
    | none => simp only [Out.ok_bind, Option.map_none]; exact ih s
    | some a =>
      simp only [Option.map_some, List.foldlM_cons]
      cases s.add a p.2 with
      | ok s' => simp only [Out.ok_bind]; exact ih s'
      | throw => rfl
      | ub => rfl

theorem add_ok {s a t : Solution} {x : ℚ} (h : s.add a x = .ok t) :
    (x = 0 ∧ t = s) ∨ (x ≠ 0 ∧ t.massWater ≠ 0) := by
  unfold Solution.add at h
  split at h
  · left; cases h; exact ⟨by assumption, rfl⟩
  · split at h
    · cases h
    · right; cases h; exact ⟨by assumption, by assumption⟩

theorem add_extensive {s a t : Solution} {x : ℚ} (h : s.add a x = .ok t) (X : Solution → ℚ)
    (hX : X ∈ extensives) : X t = X s + x * X a := by
  unfold Solution.add at h
  split at h
  · rename_i e; cases h; rw [e]; ring
  · split at h
    · cases h
    · cases h
      simp only [extensives, List.mem_cons, List.not_mem_nil, or_false] at hX
      rcases hX with rfl | rfl | rfl | rfl | rfl | rfl <;> simp only <;> ring

theorem add_totals {s a t : Solution} {x : ℚ} (h : s.add a x = .ok t) (ha : Sorted a.totals)
    (k : Name) : val t.totals k = val s.totals k + x * val a.totals k := by
  unfold Solution.add at h
  split at h
  · rename_i e; cases h; rw [e]; ring
  · split at h
    · cases h
    · rename_i hx _
      cases h
      simp only [addExtensive, if_neg hx]
      exact val_foldl_addEntry _ _ _ ha k

theorem add_intensive {s a t : Solution} {x : ℚ} (h : s.add a x = .ok t) (X : Solution → ℚ)
    (hX : X ∈ intensives) :
    t.massWater * X t = s.massWater * X s + x * (a.massWater * X a) := by
  unfold Solution.add at h
  split at h
  · rename_i e; cases h; rw [e]; ring
  · split at h
    · cases h
    · rename_i _ hne
      cases h
      simp only [intensives, List.mem_cons, List.not_mem_nil, or_false] at hX
      rcases hX with rfl | rfl | rfl | rfl | rfl | rfl | rfl | rfl | rfl <;> simp only <;>
        field_simp

/-! ## Isotopes and species -/

theorem find_addIsotope (f2 x : ℚ) (m : SMap Name Isotope) (p : Name × Isotope) (k : Name) :
    (find (addIsotope f2 x m p) k).elim 0 Isotope.total =
      (find m k).elim 0 Isotope.total + x * (if k = p.1 then p.2.total else 0) := by
  unfold addIsotope
  cases h : find m p.1 with
  | none =>
    simp only [find_insert]
    by_cases e : k = p.1
    · subst e; simp [h]; ring
    · simp [e]
  | some i =>
    simp only [find_insert]
    by_cases e : k = p.1
    · subst e; simp [h]; ring
    · simp [e]

theorem sorted_head {ν : Type} {κ : Type} [LinearOrder κ] {a : κ} {v : ν} {m : SMap κ ν}
    (hs : Sorted ((a, v) :: m)) : find m a = none := by
  rw [find_eq_none_iff]
  intro hk
  obtain ⟨p, hp, e⟩ := List.mem_map.mp hk
  have := (List.pairwise_cons.mp hs).1 p hp
  rw [e] at this
  exact lt_irrefl _ this

theorem foldl_isotopes (f2 x : ℚ) (l m : SMap Name Isotope) (hl : Sorted l) (k : Name) :
    (find (l.foldl (addIsotope f2 x) m) k).elim 0 Isotope.total =
      (find m k).elim 0 Isotope.total + x * (find l k).elim 0 Isotope.total := by
  induction l generalizing m with
  | nil => simp [find]
  | cons p l ih =>
    obtain ⟨a, i⟩ := p
    rw [List.foldl_cons, ih _ (List.pairwise_cons.mp hl).2, find_addIsotope]
    simp only [find]
    by_cases e : k = a
    · subst e
      simp [sorted_head hl]
    · simp [e]

theorem add_isotopes {s a t : Solution} {x : ℚ} (h : s.add a x = .ok t) (ha : Sorted a.isotopes)
    (k : Name) : isotopeTotal k t = isotopeTotal k s + x * isotopeTotal k a := by
  unfold Solution.add at h
  split at h
  · rename_i e; cases h; rw [e]; ring
  · split at h
    · cases h
    · cases h
      exact foldl_isotopes _ _ _ _ ha k

theorem foldl_species (f1 f2 : ℚ) (l m : SMap Int ℚ) (hl : Sorted l) (k : Int) :
    find (l.foldl (addSpecies f1 f2) m) k =
      match find m k, find l k with
      | c, none => c
      | none, some b => some b
      | some c, some b => some (c * f1 + b * f2) := by
  induction l generalizing m with
  | nil => simp [find]
  | cons p l ih =>
    obtain ⟨a, v⟩ := p
    rw [List.foldl_cons, ih _ (List.pairwise_cons.mp hl).2]
    simp only [find]
    by_cases e : k = a
    · subst e
      rw [sorted_head hl, if_pos rfl]
      unfold addSpecies
      simp only
      cases h : find m k <;> simp [find_insert]
    · rw [if_neg e]
      have : find (addSpecies f1 f2 m (a, v)) k = find m k := by
        unfold addSpecies
        simp only
        split <;> simp [find_insert, e]
      rw [this]

/-- Species present in the part: the weighted mean if it was there before or nothing was. -/
theorem add_species {s a t : Solution} {x : ℚ} (h : s.add a x = .ok t) (ha : Sorted a.species)
    (k : Int) (hx : x = 0 ∨ (find a.species k).isSome)
    (hs : s.massWater = 0 ∨ (find s.species k).isSome) :
    t.massWater * speciesOf k t = s.massWater * speciesOf k s + x * (a.massWater * speciesOf k a) ∧
    (t.massWater = 0 ∨ (find t.species k).isSome) := by
  unfold Solution.add at h
  split at h
  · rename_i e; cases h; rw [e]; exact ⟨by ring, hs⟩
  · rename_i hx0
    split at h
    · cases h
    · rename_i hne
      cases h
      have hk := hx.resolve_left hx0
      obtain ⟨b, hb⟩ := Option.isSome_iff_exists.mp hk
      unfold speciesOf
      simp only [foldl_species _ _ _ _ ha k, hb]
      cases hsk : find s.species k with
      | none =>
        have h0 : s.massWater = 0 := by
          rcases hs with h | h
          · exact h
          · rw [hsk] at h; cases h
        simp [h0]; ring
      | some c =>
        simp only [Option.elim_some, id_eq, Option.isSome_some, or_true, and_true]
        field_simp

/-! ## All parts -/

theorem addAll_nil (s : Solution) : addAll s [] = .ok s := rfl

theorem addAll_cons (s : Solution) (p : Solution × ℚ) (ps : List (Solution × ℚ)) (t : Solution) :
    addAll s (p :: ps) = .ok t ↔ ∃ u, s.add p.1 p.2 = .ok u ∧ addAll u ps = .ok t := by
  unfold addAll
  rw [List.foldlM_cons]
  cases s.add p.1 p.2 with
  | ok u => simp [Out.ok_bind]
  | throw => simp only [Out.throw_bind]; constructor <;> simp
  | ub => simp only [Out.ub_bind]; constructor <;> simp

/-- A quantity to which each part adds its share adds up over all parts. -/
theorem addAll_sum (X : Solution → ℚ) (P : Solution → Prop)
    (hadd : ∀ s a t x, P a → s.add a x = .ok t → X t = X s + x * X a)
    (ps : List (Solution × ℚ)) (hP : ∀ p ∈ ps, P p.1) : ∀ (s t : Solution), addAll s ps = .ok t →
      X t = X s + wsum X ps := by
  induction ps with
  | nil => intro s t h; cases h; rw [wsum_nil]; ring
  | cons p ps ih =>
    intro s t h
    obtain ⟨u, h1, h2⟩ := (addAll_cons _ _ _ _).mp h
    rw [ih (fun q hq => hP q (List.mem_cons_of_mem _ hq)) u t h2,
      hadd _ _ _ _ (hP p List.mem_cons_self) h1, wsum_cons]
    ring

theorem addAll_mean (X : Solution → ℚ) (hX : X ∈ intensives) (ps : List (Solution × ℚ)) :
    ∀ (s t : Solution), addAll s ps = .ok t →
      t.massWater * X t = s.massWater * X s + wsum (fun a => a.massWater * X a) ps := by
  induction ps with
  | nil => intro s t h; cases h; rw [wsum_nil]; ring
  | cons p ps ih =>
    intro s t h
    obtain ⟨u, h1, h2⟩ := (addAll_cons _ _ _ _).mp h
    rw [ih u t h2, add_intensive h1 X hX, wsum_cons]
    ring

theorem addAll_species (k : Int) (ps : List (Solution × ℚ))
    (hs : ∀ p ∈ ps, Sorted p.1.species)
    (hk : ∀ p ∈ ps, p.2 = 0 ∨ (find p.1.species k).isSome) :
    ∀ (s t : Solution), (s.massWater = 0 ∨ (find s.species k).isSome) → addAll s ps = .ok t →
      t.massWater * speciesOf k t =
        s.massWater * speciesOf k s + wsum (fun a => a.massWater * speciesOf k a) ps := by
  induction ps with
  | nil => intro s t _ h; cases h; rw [wsum_nil]; ring
  | cons p ps ih =>
    intro s t h0 h
    obtain ⟨u, h1, h2⟩ := (addAll_cons _ _ _ _).mp h
    obtain ⟨a1, a2⟩ := add_species h1 (hs p List.mem_cons_self) k (hk p List.mem_cons_self) h0
    rw [ih (fun q hq => hs q (List.mem_cons_of_mem _ hq))
      (fun q hq => hk q (List.mem_cons_of_mem _ hq)) u t a2 h2, a1, wsum_cons]
    ring

theorem addAll_mass_ne (ps : List (Solution × ℚ)) : ∀ (s t : Solution),
    (s.massWater ≠ 0 ∨ ∃ p ∈ ps, p.2 ≠ 0) → addAll s ps = .ok t → t.massWater ≠ 0 := by
  induction ps with
  | nil =>
    intro s t h0 h
    cases h
    rcases h0 with h | ⟨p, hp, _⟩
    · exact h
    · cases hp
  | cons p ps ih =>
    intro s t h0 h
    obtain ⟨u, h1, h2⟩ := (addAll_cons _ _ _ _).mp h
    refine ih u t ?_ h2
    rcases add_ok h1 with ⟨hx, rfl⟩ | ⟨_, hu⟩
    · rcases h0 with h | ⟨q, hq, hq0⟩
      · exact Or.inl h
      · rcases List.mem_cons.mp hq with rfl | hq
        · exact absurd hx hq0
        · exact Or.inr ⟨q, hq, hq0⟩
    · exact Or.inl hu

/-- With positive water masses and factors that are not negative there is always a mixture. -/
theorem addAll_exists (ps : List (Solution × ℚ)) (hp : ∀ p ∈ ps, 0 < p.1.massWater ∧ 0 ≤ p.2) :
    ∀ s : Solution, 0 ≤ s.massWater → ∃ t, addAll s ps = .ok t := by
  induction ps with
  | nil => intro s _; exact ⟨s, rfl⟩
  | cons p ps ih =>
    intro s h0
    obtain ⟨hm, hx⟩ := hp p List.mem_cons_self
    have : ∃ u, s.add p.1 p.2 = .ok u ∧ 0 ≤ u.massWater := by
      unfold Solution.add
      by_cases e : p.2 = 0
      · rw [if_pos e]; exact ⟨s, rfl, h0⟩
      · have hx' : 0 < p.2 := lt_of_le_of_ne hx (Ne.symm e)
        have hpos : 0 < s.massWater + p.1.massWater * p.2 :=
          add_pos_of_nonneg_of_pos h0 (mul_pos hm hx')
        rw [if_neg e, if_neg (ne_of_gt hpos)]
        exact ⟨_, rfl, le_of_lt hpos⟩
    obtain ⟨u, h1, h2⟩ := this
    obtain ⟨t, h3⟩ := ih (fun q hq => hp q (List.mem_cons_of_mem _ hq)) u h2
    exact ⟨t, (addAll_cons _ _ _ _).mpr ⟨u, h1, h3⟩⟩

end Verif.Mixing
