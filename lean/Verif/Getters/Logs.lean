import Verif.Getters.Props

/-!
# Activity coefficients and molalities of species (C193)

`GetSpeciesLog10Gammas` and `GetSpeciesLog10Molalities` (`/repo/src/PhreeqcRM.cpp:5037-5077, 5179-5217`) are
`GetSpeciesConcentrations` with another map of the solution; here the maps are made from the species of the last calculation.
-/

namespace Verif.Getters

open Verif.Mapping Verif.Grid

/-- A species of a calculation, `s_x[i]`: number, `type <= H2O`, log of the activity coefficient and of the molality. -/
structure Sp where
  number : Int
  aqueous : Bool
  lg : ℚ
  lm : ℚ

/-- The map that is saved with the solution,
`/repo/src/IPhreeqcPhast/IPhreeqc/phreeqcpp/mainsubs.cpp:1404-1420`. Each number is that of one species, so that no entry is
overwritten; the order of the map does not matter. -/
def saveMap (f : Sp → ℚ) (xs : List Sp) : List (Int × ℚ) :=
  (xs.filter (fun x => x.aqueous)).map (fun x => (x.number, f x))

/-- What the user is told of a cell: the values of the species in the table. -/
def logRow (f : Sp → ℚ) (nsp : Nat) (m : List (Int × Nat)) (xs : List Sp) : Out (List ℚ) :=
  speciesRow nsp m (saveMap f xs)

/-- C193 as stated: the value of every species in the solution is its own, and for a species that is not in the solution no
number is shown that a species could have (it is below `-10` or at least `1e30`). -/
def LogsRight (f : Sp → ℚ) (nsp : Nat) (m : List (Int × Nat)) (xs : List Sp) : Prop :=
  ∃ d, logRow f nsp m xs = .ok d ∧ d.length = nsp ∧
    (∀ x ∈ xs, x.aqueous = true → ∀ r, (x.number, r) ∈ m → d[r]? = some (f x)) ∧
    ∀ k r, (k, r) ∈ m → (∀ x ∈ xs, x.aqueous = true → x.number ≠ k) → ∃ a, d[r]? = some a ∧ (a < -10 ∨ 10 ^ 30 ≤ a)

/-- **C193, the part that holds**: the value of every species in the solution is its own.
Missing: species that are not in the solution are shown as zero, that is with a molality of one, `absent_is_one`. -/
theorem logs_partial (f : Sp → ℚ) {nsp : Nat} {m : List (Int × Nat)} (hm : GoodTable nsp m) (xs : List Sp)
    (hn : (xs.map Sp.number).Nodup) (hin : ∀ x ∈ xs, x.aqueous = true → ∃ r, (x.number, r) ∈ m) :
    ∃ d, logRow f nsp m xs = .ok d ∧ d.length = nsp ∧
      (∀ x ∈ xs, x.aqueous = true → ∀ r, (x.number, r) ∈ m → d[r]? = some (f x)) ∧
      ∀ k r, (k, r) ∈ m → (∀ x ∈ xs, x.aqueous = true → x.number ≠ k) → d[r]? = some 0 := by
  have hmap : (saveMap f xs).map Prod.fst = (xs.filter (fun x => x.aqueous)).map Sp.number := by
    unfold saveMap
    rw [List.map_map]; rfl
  have hnd : ((saveMap f xs).map Prod.fst).Nodup := by
    rw [hmap]
    exact hn.sublist (List.filter_sublist.map _)
  obtain ⟨d, h1, h2, h3⟩ := species_right_partial hm (saveMap f xs) hnd (by
    intro p hp
    obtain ⟨x, hx, rfl⟩ := List.mem_map.1 hp
    exact hin x (List.mem_filter.1 hx).1 (by simpa using (List.mem_filter.1 hx).2))
  refine ⟨d, h1, h2, fun x hx ha r hr => ?_, fun k r hr hno => ?_⟩
  · obtain ⟨a, ha', hd⟩ := h3 x.number r hr
    have hmem : (x.number, f x) ∈ saveMap f xs := List.mem_map.2 ⟨x, List.mem_filter.2 ⟨hx, by simpa using ha⟩, rfl⟩
    rcases ha' with ha' | ⟨_, hno⟩
    · have := List.inj_on_of_nodup_map hnd ha' hmem rfl
      simp only [Prod.mk.injEq] at this
      rw [hd, this.2]
    · exact absurd rfl (hno _ hmem)
  · obtain ⟨a, ha', hd⟩ := h3 k r hr
    rcases ha' with ha' | ⟨rfl, _⟩
    · obtain ⟨x, hx, he⟩ := List.mem_map.1 ha'
      simp only [Prod.mk.injEq] at he
      exact absurd he.1 (hno x (List.mem_filter.1 hx).1 (by simpa using (List.mem_filter.1 hx).2))
    · exact hd

/-- Three species in the table; the second is not in the solution, and an exchange species is in the calculation. -/
def Demo.sx : List Sp := [⟨7, true, -1 / 10, -7⟩, ⟨12, false, 0, -1⟩, ⟨9, true, 0, -2⟩]

/-- The hypotheses of `logs_partial` are met. -/
example : GoodTable 3 [(7, 0), (8, 1), (9, 2)] ∧ (Demo.sx.map Sp.number).Nodup ∧
    ∀ x ∈ Demo.sx, x.aqueous = true → ∃ r, (x.number, r) ∈ [((7 : Int), 0), (8, 1), (9, 2)] := by
  refine ⟨⟨by decide, by decide, by decide⟩, by decide, ?_⟩
  intro x hx ha
  simp only [Demo.sx, List.mem_cons, List.not_mem_nil, or_false] at hx
  rcases hx with rfl | rfl | rfl
  · exact ⟨0, by simp⟩
  · cases ha
  · exact ⟨2, by simp⟩

/-- **C193 is violated**: species 8, which is not in the solution, is shown with a log molality of zero, the molality of one
mole per kilogram of water (`/repo/src/PhreeqcRM.cpp:5191-5200`). -/
theorem absent_is_one : logRow Sp.lm 3 [(7, 0), (8, 1), (9, 2)] Demo.sx = .ok [-7, 0, -2] ∧
    ¬ LogsRight Sp.lm 3 [(7, 0), (8, 1), (9, 2)] Demo.sx := by
  have key : logRow Sp.lm 3 [(7, 0), (8, 1), (9, 2)] Demo.sx = .ok [-7, 0, -2] := by decide +kernel
  refine ⟨key, ?_⟩
  rintro ⟨d, h1, _, _, h4⟩
  rw [key] at h1
  cases h1
  obtain ⟨a, h5, h6⟩ := h4 8 1 (by simp) (by
    intro x hx ha
    simp only [Demo.sx, List.mem_cons, List.not_mem_nil, or_false] at hx
    rcases hx with rfl | rfl | rfl <;> decide)
  cases h5
  rcases h6 with h6 | h6
  · revert h6; decide +kernel
  · revert h6; decide +kernel

end Verif.Getters
