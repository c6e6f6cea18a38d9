import Verif.Assemble.Props
import Verif.Assemble.Props2

/-!
# Cases and violations for the sum a reaction calculation starts from
-/

namespace Verif.Assemble

open Spec

/-- A small data base: water, sodium, chloride, calcium, strontium, carbon with two redox states. -/
def db : Db where
  masters := [⟨"H", "H+", .hplus, .aq⟩, ⟨"O", "H2O", .h2o, .aq⟩, ⟨"E", "e-", .eminus, .aq⟩, ⟨"Na", "Na+", .other, .aq⟩,
    ⟨"Cl", "Cl-", .other, .aq⟩, ⟨"Ca", "Ca+2", .other, .aq⟩, ⟨"Sr", "Sr+2", .other, .aq⟩, ⟨"C", "CO3-2", .other, .aq⟩,
    ⟨"C(4)", "CO3-2", .other, .aq⟩, ⟨"C(-4)", "CH4", .other, .aq⟩, ⟨"X", "X-", .other, .ex⟩]
  first := fun n => if n = "C(4)" ∨ n = "C(-4)" then "C" else n
  phase := fun n =>
    if n = "Halite" then some [("Na", 1), ("Cl", 1)]
    else if n = "Calcite" then some [("Ca", 1), ("C", 1), ("O", 3)]
    else if n = "Strontianite" then some [("Sr", 1), ("C", 1), ("O", 3)]
    else if n = "CaCl2" then some [("Ca", 1), ("Cl", 2)]
    else none
  formula := fun n => if n = "NaCl" then [("Na", 1), ("Cl", 1)] else if n = "Na" then [("Na", 1)] else []
  least := 1 / 10 ^ 25
  leastSS := 1 / 10 ^ 27

theorem db_sound : Sound db where
  names := by decide
  least := by show (0 : ℚ) ≤ 1 / 10 ^ 25; norm_num
  leastSS := by show (0 : ℚ) ≤ 1 / 10 ^ 27; norm_num

/-- A solution with one kilogram of water. -/
def sol (t : Amounts) (temp : ℚ) : Solution :=
  ⟨t, 111, 55, 0, 1, fun j => if j = .tc then temp else if j = .ph then 7 else 0⟩

/-- Nothing but a solution. -/
def only (s : Solution) : Input := ⟨.one s, fun _ => none, none, 1, none, none, none, none, none, none, none, none⟩

/-- What a case looks at: sums of elements, solution -1, minerals, components, marks. -/
structure View where
  ok : Bool
  sums : List ℚ
  totals : Amounts
  h : ℚ
  tc : ℚ
  pp : Option (List (Name × ℚ × ℚ))
  ss : Option (List (Name × ℚ × ℚ))
  marks : List Name
  deriving DecidableEq

/-- The view of a result. -/
def Done.view : Done → View
  | .sum st s pp ss marks =>
    ⟨true, db.masters.map fun m => st.tot m.name, s.totals, s.h, s.inten .tc,
      pp.map fun p => p.comps.map fun c => (c.name, c.moles, c.delta),
      ss.map fun l => l.flatten.map fun c => (c.name, c.moles, c.delta), marks⟩
  | .massBalance pp ss =>
    ⟨false, [], [], 0, 0, pp.map fun p => p.comps.map fun c => (c.name, c.moles, c.delta),
      ss.map fun l => l.flatten.map fun c => (c.name, c.moles, c.delta), []⟩

/-- The view of a step. -/
def look (i : Input) : Option View :=
  match step db i 0 with
  | .ok d => some d.view
  | _ => none

theorem look_ok {i : Input} {v : View} (h : look i = some v) : ∃ d, step db i 0 = .ok d ∧ d.view = v := by
  unfold look at h
  cases hs : step db i 0 with
  | ok d =>
    rw [hs] at h
    exact ⟨d, rfl, by simpa using h⟩
  | _ => rw [hs] at h; cases h

/-- The parts of a successful step. -/
theorem look_sum {i : Input} {v : View} (h : look i = some v) (hv : v.ok = true) :
    ∃ st s pp ss marks, step db i 0 = .ok (.sum st s pp ss marks) ∧ (Done.sum st s pp ss marks).view = v := by
  obtain ⟨d, h1, h2⟩ := look_ok h
  cases d with
  | sum st s pp ss marks => exact ⟨st, s, pp, ss, marks, h1, h2⟩
  | massBalance pp ss =>
    rw [← h2] at hv
    cases hv

/-- A reaction takes sodium away; halite replaces what is missing. -/
def halite (n take : ℚ) : Input :=
  { only (sol [("Na", 1), ("Cl", 1)] 25) with
    reaction := some ⟨[("Na", -1)], take, 'M'⟩
    pp := some ⟨[⟨"Halite", none, false, n, 0⟩], ["Na", "Cl"]⟩ }

theorem halite_plain (n take : ℚ) : Plain db (halite n take) := by
  intro x hx
  cases hx

theorem halite_proper (n take : ℚ) : Proper db (halite n take) := by
  constructor
  · intro p hp c hc e he x hx
    cases hp
    rw [List.mem_singleton] at hc
    subst hc
    simp only [ppElts, db] at he
    cases he
    simp only [List.mem_cons, List.not_mem_nil, or_false] at hx
    rcases hx with rfl | rfl <;> norm_num
  · intro s hs
    cases hs

theorem halite_listed (n take : ℚ) : Listed db (halite n take) := by
  intro p hp c hc e he x hx
  cases hp
  rw [List.mem_singleton] at hc
  subst hc
  simp only [ppElts, db] at he
  cases he
  simp only [List.mem_cons, List.not_mem_nil, or_false] at hx
  rcases hx with rfl | rfl
  · exact ⟨"Na", by simp, rfl⟩
  · exact ⟨"Cl", by simp, rfl⟩

/-- One mole of sodium is missing, and halite gives it with a little more. -/
theorem halite_gives : look (halite 5 2) = some
    ⟨true, [0, 0, 0, 1 / 10 ^ 10, 2 + 1 / 10 ^ 10, 0, 0, 0, 0, 0, 0], [("Na", 1 / 10 ^ 10), ("Cl", 2 + 1 / 10 ^ 10)], 111, 25,
      some [("Halite", 4 - 1 / 10 ^ 10, 1 + 1 / 10 ^ 10)], none, []⟩ := by
  decide +kernel

/-- The hypotheses of `start_is_sum`, `minerals_give`, `minerals_delta_partial`, `marks_exact` and `averages_partial` are met. -/
theorem halite_case : ∃ st s pp ss marks, step db (halite 5 2) 0 = .ok (.sum st s pp ss marks)
    ∧ Plain db (halite 5 2) ∧ Proper db (halite 5 2) ∧ Listed db (halite 5 2) ∧ water (halite 5 2) ≠ 0 := by
  obtain ⟨st, s, pp, ss, marks, h, _⟩ := look_sum halite_gives rfl
  exact ⟨st, s, pp, ss, marks, h, halite_plain _ _, halite_proper _ _, halite_listed _ _, by decide +kernel⟩

/-- Five moles of halite are not enough for ten moles of sodium: the step fails and halite is as it was. -/
theorem halite_fails : look (halite 5 10) = some
    ⟨false, [], [], 0, 0, some [("Halite", 5, 0)], none, []⟩ := by
  decide +kernel

/-- Calcite that has no carbon to form from: the species of carbon are marked. -/
def noCarbon : Input :=
  { only (sol [("Ca", 1)] 25) with
    pp := some ⟨[⟨"Calcite", none, false, 0, 0⟩], ["Ca", "C", "O"]⟩ }

theorem no_carbon_marked : look noCarbon = some
    ⟨true, [0, 0, 0, 0, 0, 1, 0, 0, 0, 0, 0], [("Ca", 1)], 111, 25, some [("Calcite", 0, 0)], none,
      ["CO3-2", "CO3-2", "CH4"]⟩ := by
  decide +kernel

/-- A mixture of two solutions. -/
def mixture (f g : ℚ) : Input :=
  { only (sol [] 25) with
    water := .mix [(1, f), (2, g)]
    sols := fun n => if n = 1 then some (sol [("Na", 1)] 25) else if n = 2 then some (sol [("Na", 1)] 25) else none }

/-- The hypotheses of `averages_partial` are met by a mixture. -/
theorem mixture_case : (∃ st s pp ss marks, step db (mixture 1 3) 0 = .ok (.sum st s pp ss marks))
    ∧ (∀ p ∈ parts (mixture 1 3), 0 ≤ p.1) ∧ water (mixture 1 3) = 4 := by
  refine ⟨?_, ?_, by decide +kernel⟩
  · have h : look (mixture 1 3) = some
        ⟨true, [0, 0, 0, 4, 0, 0, 0, 0, 0, 0, 0], [("Na", 4)], 444, 25, none, none, []⟩ := by decide +kernel
    obtain ⟨st, s, pp, ss, marks, h, _⟩ := look_sum h rfl
    exact ⟨st, s, pp, ss, marks, h⟩
  · intro p hp
    simp only [parts, mixture, List.filterMap_cons, List.filterMap_nil] at hp
    simp only [if_true, Option.map_some, List.mem_cons, List.not_mem_nil, or_false] at hp
    rcases hp with rfl | hp
    · norm_num
    · simp at hp
      rw [hp]
      norm_num

/-- **Violation** of C182. Two liters of a solution at 25 degrees, less one liter at the same temperature: the step starts from
0 degrees and not from 25. -/
theorem negative_fraction : (look (mixture 2 (-1))).map View.tc = some 0 := by
  decide +kernel

/-- **Violation** of C181. A trace of calcite is used up for its carbon, while strontianite lacks strontium: the
moles calcite gave are forgotten, so moles and what it gave no longer add up to the moles it had. -/
theorem used_up_forgotten : (look
    { only (sol [("Ca", 1)] 25) with
      pp := some ⟨[⟨"Calcite", none, false, 1 / 10 ^ 11, 0⟩, ⟨"Strontianite", none, false, 0, 0⟩],
        ["Ca", "C", "O", "Sr"]⟩ }).map View.pp = some (some [("Calcite", 0, 0), ("Strontianite", 0, 0)]) := by
  decide +kernel

/-- A solid solution of calcium and strontium carbonate, and the chloride of calcium. -/
def solid : List SSComp := [⟨"Strontianite", 0, 0⟩, ⟨"CaCl2", 0, 0⟩]

/-- **Violation** of C183. The second component lacks chloride, but the species of chloride are not marked, because the first
component lacks strontium and carbon. -/
theorem later_component_forgotten :
    ssCheck db (fun n => if n = "Ca" then 1 else 0) [solid] = .ok ["Sr+2", "CO3-2", "CO3-2", "CH4"]
      ∧ ssCheck db (fun n => if n = "Ca" then 1 else 0) [solid.reverse] = .ok ["Cl-"]
      ∧ ssCheck db (fun n => if n = "Ca" ∨ n = "Sr" ∨ n = "C" then 1 else 0) [solid] = .ok ["Cl-"] := by
  decide +kernel

/-- The hypotheses of `limit_is_most_partial` are met: half a mole, since there is one mole of chloride for two. -/
theorem limit_case : ssLimit db (systemTotals db (sol [("Ca", 1), ("Cl", 1)] 25) none none) ⟨"CaCl2", 0, 0⟩ = .ok (1 / 2) := by
  decide +kernel

/-- **Violation** of C184. There is no strontium at all, but the limit for strontianite is what carbon suffices for. -/
theorem absent_element_ignored :
    ssLimit db (systemTotals db (sol [("C", 1)] 25) none none) ⟨"Strontianite", 0, 0⟩ = .ok 1 := by
  decide +kernel

/-- **Violation** of C184. A mineral that reacts to another formula is not counted. -/
theorem other_formula_ignored :
    systemTotals db (sol [] 25) (some ⟨[⟨"Halite", some "Na", false, 1, 0⟩], ["Na"]⟩) none
      = [("O", 55), ("H", 111), ("Charge", 0)] := by
  decide +kernel

end Verif.Assemble
