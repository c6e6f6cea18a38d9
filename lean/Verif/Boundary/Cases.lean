import Verif.Boundary.Props

/-! # C63: concrete boundaries and what the code does not do -/

namespace Verif.Boundary

open Verif.OMap Verif.NameDouble Verif.Mixing Verif.Conc Verif.Grid

/-- Fresh water: 1 kg of water, 1 L, with 1 mmol of Na. -/
def river : Solution :=
  { fresh with totalH := 111, totalO := 56, totals := [("Na".toList, 1 / 1000)] }

/-- Brine: 1 kg of water, 1.25 L, 1.2 kg/L, with 5 mol of Na in two entries. -/
def brine : Solution :=
  { fresh with totalH := 111, totalO := 56, density := 6 / 5, solnVol := 5 / 4,
               totals := [("Na".toList, 4), ("Na(1)".toList, 1)] }

/-- Solutions 1 and 4, water as a component, sodium; mol/L. -/
def demo : Init :=
  { sols := [(1, river), (4, brine)], mixes := [2], h2o := true, units := .molL,
    comps := ["H2O".toList, "H".toList, "O".toList, "Charge".toList, "Na".toList],
    gfw := [18, 1, 16, 1, 23], mode := 0 }

theorem demo_elements : Elements ["Na".toList] :=
  ⟨by decide, by decide⟩

theorem demo_ready : Ready demo ["Na".toList] :=
  ⟨by decide, demo_elements, by decide, by decide +kernel, by simp [demo, Sorted]⟩

theorem river_usable : Usable river :=
  ⟨⟨by simp [river, Sorted], by simp [river, fresh, Sorted], by simp [river, fresh, Sorted]⟩,
    by
      intro p hp
      simp only [river, List.mem_singleton] at hp
      subst hp
      exact ⟨"Na".toList, by decide, .inl rfl⟩,
    by decide +kernel, by decide +kernel, by decide +kernel⟩

theorem brine_usable : Usable brine :=
  ⟨⟨by simp [brine, Sorted], by simp [brine, fresh, Sorted],
      by simp [brine, fresh, Sorted]⟩,
    by
      intro p hp
      simp only [brine, List.mem_cons, List.not_mem_nil, or_false] at hp
      rcases hp with rfl | rfl
      · exact ⟨"Na".toList, by decide, .inl rfl⟩
      · exact ⟨"Na".toList, by decide, .inr ⟨"1)".toList, by decide, by decide⟩⟩,
    by decide +kernel, by decide +kernel, by decide +kernel⟩

/-- Three entries: river alone, half river and half brine, and the highest number. The array
passed is too long and is cut. -/
example : boundary demo [1, 1, -1] [-1, 4] [1, 1 / 2] (List.replicate 40 7) = .ok
    ([1000 / 18, 1000 / 18 * 8 / 9, 1000 / 18 * 4 / 5,
      111 - 2000 / 18, (111 - 2000 / 18) * 8 / 9, (111 - 2000 / 18) * 4 / 5,
      56 - 1000 / 18, (56 - 1000 / 18) * 8 / 9, (56 - 1000 / 18) * 4 / 5,
      0, 0, 0,
      1 / 1000, (5 + 1 / 1000) / 2 / (9 / 8), 4], .value .ok) := by decide +kernel

/-- The premises of `boundary_partial` for these entries. -/
example : ∀ (i : Nat) n, [1, 1, (-1 : Int)][i]? = some n →
    ∃ s1, First demo n s1 ∧ Usable s1 ∧ Good demo [-1, 4] [1, 1 / 2] i s1 := by
  intro i n h
  match i, h with
  | 0, h =>
    cases h
    exact ⟨river, .inl ⟨by decide, by decide +kernel⟩, river_usable,
      .alone 1 (by intro n h; cases h; decide) (.inl rfl) (by norm_num)⟩
  | 1, h =>
    cases h
    exact ⟨river, .inl ⟨by decide, by decide +kernel⟩, river_usable,
      .both (1 / 2) 4 brine rfl (by decide) (by decide +kernel) brine_usable (.inl rfl)
        (by norm_num) (by norm_num)⟩
  | 2, h =>
    cases h
    exact ⟨brine, .inr ⟨by decide, 4, by decide, by decide +kernel, by decide, by decide⟩,
      brine_usable, .alone 1 (by intro n h; cases h) (.inr ⟨rfl, rfl⟩) (by norm_num)⟩
  | n + 3, h => simp at h

/-- C63, the code. A first solution that does not exist is not reported: an error message of the
mixing constructor is ignored, and all concentrations are zero divided by zero. -/
theorem missing_violated (st : Init) (n : Int) (dest : List ℚ) (h0 : 0 ≤ n) (hg : st.gfw ≠ [])
    (hn : find st.sols n = none) : boundary st [n] [] [] dest = .ub := by
  have hm : mixture st [] [] 0 n (fun _ => none) = ((fun _ => none), [(n, 1)]) := by
    have hr : resolve st n = n := by unfold resolve; rw [if_neg (by omega)]
    simp only [mixture, hr, fetch1, if_pos h0, copy, hn, fractionAt, secondAt, List.getElem?_nil]
    rw [if_neg (by simp)]
    rfl
  have hc : concs st (fun _ => none) [(n, 1)] = .ub := by
    simp only [concs, Solution.mix, Solution.mixStep, List.foldlM_cons, List.foldlM_nil]
    simp [hg, Solution.zero]
  unfold boundary
  rw [if_neg (by simp)]
  have he : ∀ c, entry st [n] [] [] ((fun _ => none), c) 0 = .ub := by
    intro c
    simp only [entry, idx_nat (i := 0) (show [n][0]? = some n from rfl), Out.ok_bind, hm, hc,
      Out.ub_bind]
  have : (List.range [n].length).foldlM (entry st [n] [] [])
      ((fun _ => none), resize dest (st.comps.length * [n].length)) = .ub := by
    have hr : List.range [n].length = [0] := rfl
    rw [hr, List.foldlM_cons, he, Out.ub_bind]
  simp only [this]

example : (0 : Int) ≤ 9 ∧ demo.gfw ≠ [] ∧ find demo.sols 9 = none := by decide +kernel

/-- C63, the code. A second solution that does not exist is left out of the mixture, which
then is the first alone, and the call reports success. -/
theorem missing_second_violated :
    find demo.sols 9 = none ∧
    boundary demo [1] [9] [1 / 4] [] = boundary demo [1] [] [] [] ∧
    ∃ c, boundary demo [1] [9] [1 / 4] [] = .ok (c, .value .ok) := by
  refine ⟨by decide +kernel, by decide +kernel, ⟨[1000 / 18, 111 - 2000 / 18, 56 - 1000 / 18, 0,
    1 / 1000], by decide +kernel⟩⟩

/-- C63, the code. The documentation says that the fraction of an entry without second solution
is ignored; a fraction of zero gives zero divided by zero. -/
theorem ignored_fraction_violated : boundary demo [1] [-1] [0] [] = .ub := by decide +kernel

/-- C63, the code. A negative number stands for the solution with the highest number; if a MIX
has a higher number, that number is taken, although there is no such solution. -/
theorem mix_number_violated :
    boundary { demo with mixes := [2, 7] } [-1] [] [] [] = .ub ∧
    ∃ c, boundary demo [-1] [] [] [] = .ok (c, .value .ok) :=
  ⟨by decide +kernel, ⟨[1000 / 18 * 4 / 5, (111 - 2000 / 18) * 4 / 5, (56 - 1000 / 18) * 4 / 5, 0,
    4], by decide +kernel⟩⟩

/-- C63, the code. Without any solution a negative number gives pure water, and success. -/
theorem default_water :
    boundary { demo with sols := [], mixes := [] } [-1] [] [] [] =
      .ok ([1000 / 18, 1111 / 10 - 2000 / 18, 5555 / 100 - 1000 / 18, 0, 0], .value .ok) := by
  decide +kernel

/-- One litre of a solution of 3 kg/L with half a kilogram of water. -/
def dense : Solution :=
  { fresh with massWater := 1 / 2, totalH := 56, totalO := 28, density := 3, solnVol := 1,
               totals := [("Na".toList, 1)] }

/-- C63, the code. In mass fractions the density of a mixture is the mean weighted by the mass
of water, not mass over volume: half a litre of fresh water (1 kg/L) and half a litre of a
solution of 3 kg/L weigh 2 kg and contain 0.5 mol = 11.5 g of sodium, a mass fraction of
11.5/2000; the code returns 11.5/1666.7. -/
theorem mass_fraction_violated :
    ∃ c x, boundary { demo with sols := [(1, fresh), (2, dense)], units := .massFraction }
        [1] [2] [1 / 2] [] = .ok (c, .value .ok) ∧ c[4]? = some x ∧
      x * (1 / 2 * (fresh.solnVol * fresh.density) + 1 / 2 * (dense.solnVol * dense.density)) *
        1000 ≠ 1 / 2 * 1 * 23 ∧
      x * (5 / 3) * 1000 = 1 / 2 * 1 * 23 := by
  refine ⟨[9 / 20, (8355 / 100 - 1500 / 18) / 1000 / (5 / 3),
    (41775 / 1000 - 750 / 18) * 16 / 1000 / (5 / 3), 0, 69 / 10000],
    69 / 10000, by decide +kernel, rfl, by decide +kernel, by decide +kernel⟩

end Verif.Boundary
