import Verif.CBoundary.Model
import Verif.Boundary.Cases

/-! # Boundary concentrations in C -/

namespace Verif.CBoundary

open Verif.OMap Verif.NameDouble Verif.Mixing Verif.Conc
open Verif.Setters Verif.Boundary Verif.CTables

theorem copyIn_ok {α : Type} {n : Nat} {a : List α} (h0 : 0 < n) (hm : n ≤ maxSize) (ha : n ≤ a.length) :
    copyIn (n : Int) a = .ok (a.take n) := by
  have e : resizeInt (n : Int) = .ok n := by
    unfold resizeInt
    have : ¬ (n : Int) < 0 := by omega
    simp only [this, if_false, Int.toNat_natCast]
    rw [if_neg (by omega)]
  unfold copyIn
  rw [e, Out.ok_bind, if_neg (by omega), if_neg (by omega)]

/-- What an optional list means: nothing, or its first `n` values. -/
def firstOf {α : Type} (n : Nat) : Option (List α) → List α
  | none => []
  | some a => a.take n

theorem copyOpt_ok {α : Type} {n : Nat} {a : Option (List α)} (h0 : 0 < n) (hm : n ≤ maxSize)
    (ha : ∀ x, a = some x → n ≤ x.length) : copyOpt (n : Int) a = .ok (firstOf n a) := by
  cases a with
  | none => rfl
  | some x => exact copyIn_ok h0 hm (ha x rfl)

/-- **C203, part.** For a positive number of entries, arrays that are long enough, and solutions that exist: the call succeeds,
`boundary_c` holds at `n * k + i` the concentration of component `k` in entry `i` (that of the first solution alone, or of the mixture with the
second), and what is behind the values of the components is unchanged. Lists that are null count as no second solution and fraction 1.

Missing: a number of entries that is not positive (`no_entries`, `negative_entries`) and the cases missing in
`Boundary.boundary_partial`. -/
theorem concentrations_partial (st : Init) (es : List Name) (hr : Ready st es) (n : Nat) (h0 : 0 < n)
    (hm : n ≤ maxSize) (c : List ℚ) (b1 : List Int) (b2 : Option (List Int)) (f : Option (List ℚ))
    (hb1 : n ≤ b1.length) (hb2 : ∀ x, b2 = some x → n ≤ x.length) (hf : ∀ x, f = some x → n ≤ x.length)
    (hc : st.comps.length * n ≤ c.length)
    (hall : ∀ (i : Nat) k, i < n → b1[i]? = some k →
      ∃ s1, First st k s1 ∧ Usable s1 ∧ Good st (firstOf n b2) (firstOf n f) i s1) :
    ∃ c', concentrations (some st) (some c) n (some b1) b2 f = .ok (some c', .value .ok) ∧
      c'.length = c.length ∧ (∀ j, st.comps.length * n ≤ j → c'[j]? = c[j]?) ∧
      ∀ (i : Nat) (m : Int) (s1 : Solution) (k : Nat) (gw g x1 : ℚ), i < n → b1[i]? = some m →
        First st m s1 → st.gfw[0]? = some gw → st.gfw[k]? = some g → Fraction (firstOf n f) i x1 →
        (Alone (firstOf n b2) i → ∃ x a, c'[n * k + i]? = some x ∧ Amount st.h2o gw es k s1 a ∧
          IsMolar st.units s1.density g x (a / s1.solnVol)) ∧
        (∀ n2 s2, (firstOf n b2)[i]? = some n2 → 0 ≤ n2 → find st.sols n2 = some s2 →
          ∃ x a1 a2, c'[n * k + i]? = some x ∧ Amount st.h2o gw es k s1 a1 ∧ Amount st.h2o gw es k s2 a2 ∧
            IsMolar st.units
              ((x1 * (s1.massWater * s1.density) + (1 - x1) * (s2.massWater * s2.density)) /
                (x1 * s1.massWater + (1 - x1) * s2.massWater)) g x
              ((x1 * a1 + (1 - x1) * a2) / (x1 * s1.solnVol + (1 - x1) * s2.solnVol))) := by
  have hlen : (b1.take n).length = n := by rw [List.length_take]; omega
  have hget : ∀ i k, (b1.take n)[i]? = some k → i < n ∧ b1[i]? = some k := by
    intro i k h
    rw [List.getElem?_take] at h
    split at h
    · exact ⟨by assumption, h⟩
    · simp at h
  obtain ⟨v, e, hv, hs⟩ := boundary_partial st es hr (b1.take n) (firstOf n b2) (firstOf n f) []
    (by intro h; rw [h] at hlen; simp at hlen; omega)
    (fun i k hk => hall i k (hget i k hk).1 (hget i k hk).2)
  rw [hlen] at hv
  have hpos : 0 < st.comps.length := by rw [hr.comps]; simp
  have hvp : 0 < v.length := by rw [hv]; exact Nat.mul_pos hpos h0
  have hvn : v ≠ [] := List.length_pos_iff.mp hvp
  refine ⟨v ++ c.drop v.length, ?_, ?_, ?_, ?_⟩
  · unfold concentrations
    dsimp only
    rw [copyIn_ok h0 hm hb1, copyOpt_ok h0 hm hb2, copyOpt_ok h0 hm hf]
    simp only [Out.ok_bind, e, if_true]
    unfold copyOut
    rw [if_neg hvn, if_neg (by omega)]
    rfl
  · rw [List.length_append, List.length_drop]; omega
  · intro j hj
    rw [List.getElem?_append_right (by omega), List.getElem?_drop]
    congr 1; omega
  · intro i m s1 k gw g x1 hi hb hF hw hg hfr
    have hb' : (b1.take n)[i]? = some m := by rw [List.getElem?_take, if_pos hi]; exact hb
    have r := hs i m s1 k gw g x1 hb' hF hw hg hfr
    rw [hlen] at r
    have up : ∀ x, v[n * k + i]? = some x → (v ++ c.drop v.length)[n * k + i]? = some x := by
      intro x hx
      rw [List.getElem?_append_left (List.getElem?_eq_some_iff.mp hx).1, hx]
    refine ⟨fun ha => ?_, fun n2 s2 h1 h2 h3 => ?_⟩
    · obtain ⟨x, a, p, q⟩ := r.1 ha
      exact ⟨x, a, up x p, q⟩
    · obtain ⟨x, a1, a2, p, q⟩ := r.2 n2 s2 h1 h2 h3
      exact ⟨x, a1, a2, up x p, q⟩

/-- **C203.** Without instance or without one of the first two arrays the call says so and changes nothing. -/
theorem concentrations_refused (c : Option (List ℚ)) (n : Int) (b1 b2 : Option (List Int))
    (f : Option (List ℚ)) :
    concentrations none c n b1 b2 f = .ok (c, .value .badInstance) ∧
    ∀ st, c = none ∨ b1 = none → concentrations (some st) c n b1 b2 f = .ok (c, .value .invalidArg) := by
  refine ⟨rfl, fun st h => ?_⟩
  unfold concentrations
  rcases h with rfl | rfl
  · rfl
  · cases c <;> rfl

/-- **C203.** Before the components are known the call fails and the array is as it was. -/
theorem concentrations_unready (st : Init) (hmode : st.mode = 0) (hg : st.gfw = []) (hs : Sorted st.sols) (n : Nat)
    (h0 : 0 < n) (hm : n ≤ maxSize) (c : List ℚ) (b1 : List Int) (b2 : Option (List Int)) (f : Option (List ℚ))
    (hb1 : n ≤ b1.length) (hb2 : ∀ x, b2 = some x → n ≤ x.length) (hf : ∀ x, f = some x → n ≤ x.length)
    (hall : ∀ (i : Nat) k, i < n → b1[i]? = some k →
      ∃ s1, First st k s1 ∧ Usable s1 ∧ Good st (firstOf n b2) (firstOf n f) i s1) :
    concentrations (some st) (some c) n (some b1) b2 f = .ok (some c, .value .fail) := by
  have hlen : (b1.take n).length = n := by rw [List.length_take]; omega
  obtain ⟨v, e⟩ := boundary_unready st (b1.take n) (firstOf n b2) (firstOf n f) [] hmode hg
    (by intro h; rw [h] at hlen; simp at hlen; omega)
    (fun i k hk => by
      rw [List.getElem?_take] at hk
      split at hk
      · exact hall i k (by assumption) hk
      · cases hk) hs
  unfold concentrations
  dsimp only
  rw [copyIn_ok h0 hm hb1, copyOpt_ok h0 hm hb2, copyOpt_ok h0 hm hf]
  simp only [Out.ok_bind, e]
  rw [if_neg (by simp)]

/-- **C203, violated.** With no entries the behaviour is undefined, although the class refuses an empty list. -/
theorem no_entries (st : Init) (c : List ℚ) (b1 : List Int) (b2 : Option (List Int)) (f : Option (List ℚ)) :
    concentrations (some st) (some c) 0 (some b1) b2 f = .ub := by
  have : copyIn (0 : Int) b1 = .ub := by
    unfold copyIn
    rw [show resizeInt 0 = .ok 0 by decide +kernel, Out.ok_bind, if_pos rfl]
  unfold concentrations
  dsimp only
  rw [this, Out.ub_bind]

/-- **C203, violated.** With a negative number an exception of the library leaves the C function. -/
theorem negative_entries (st : Init) (c : List ℚ) (b1 : List Int) (b2 : Option (List Int))
    (f : Option (List ℚ)) (n : Int) (h : n < 0) (hn : -intMax - 1 ≤ n) :
    concentrations (some st) (some c) n (some b1) b2 f = .throw := by
  have e : resizeInt n = .throw := by
    unfold resizeInt
    simp only [h, if_true]
    rw [if_pos (by unfold maxSize; unfold intMax at hn; omega)]
  unfold concentrations copyIn
  dsimp only
  rw [e, Out.throw_bind, Out.throw_bind]

namespace Demo

/-- Two entries, river and half river and half brine; the arrays are longer than needed, and the last value of `boundary_c` is kept. -/
example : concentrations (some demo) (some (List.replicate 11 7)) 2 (some [1, 1, 9]) (some [-1, 4, 9])
    (some [1, 1 / 2, 9]) = .ok (some
    [1000 / 18, 1000 / 18 * 8 / 9, 111 - 2000 / 18, (111 - 2000 / 18) * 8 / 9,
      56 - 1000 / 18, (56 - 1000 / 18) * 8 / 9, 0, 0, 1 / 1000, (5 + 1 / 1000) / 2 / (9 / 8), 7], .value .ok) := by
  decide +kernel

/-- The hypotheses of `concentrations_partial` are met by these arguments. -/
theorem applies : ∃ c', concentrations (some demo) (some (List.replicate 11 7)) (2 : Nat) (some [1, 1, 9])
    (some [-1, 4, 9]) (some [1, 1 / 2, 9]) = .ok (some c', .value .ok) := by
  obtain ⟨c', h, _⟩ := concentrations_partial demo _ demo_ready 2 (by decide) (by decide) (List.replicate 11 7)
    [1, 1, 9] (some [-1, 4, 9]) (some [1, 1 / 2, 9]) (by decide) (by intro x h; cases h; decide)
    (by intro x h; cases h; decide) (by decide) (by
      intro i k hi h
      match i, h with
      | 0, h =>
        cases h
        exact ⟨river, .inl ⟨by decide, by decide +kernel⟩, river_usable,
          .alone 1 (by intro n h; cases h; decide) (.inl rfl) (by norm_num)⟩
      | 1, h =>
        cases h
        exact ⟨river, .inl ⟨by decide, by decide +kernel⟩, river_usable,
          .both (1 / 2) 4 brine rfl (by decide) (by decide +kernel) brine_usable (.inl rfl)
            (by norm_num) (by norm_num)⟩
      | i + 2, _ => omega)
  exact ⟨c', h⟩

/-- The call before `FindComponents`. -/
example : concentrations (some { demo with gfw := [] }) (some [7, 7, 7]) 1 (some [1]) none none =
    .ok (some [7, 7, 7], .value .fail) := by decide +kernel

end Demo

end Verif.CBoundary
