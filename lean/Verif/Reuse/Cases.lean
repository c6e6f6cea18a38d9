import Verif.Reuse.Props

/-!
# Cases and violations for kept equations
-/

namespace Verif.Reuse

open Spec

/-- A small data base: calcium, carbon, magnesium, strontium and an exchange site. -/
def db : Db where
  masters := [⟨"C", .aq⟩, ⟨"Ca", .aq⟩, ⟨"H", .skip⟩, ⟨"Mg", .aq⟩, ⟨"O", .skip⟩, ⟨"Sr", .aq⟩, ⟨"X", .ex⟩]
  least := 1 / 10 ^ 25
  leastSS := 1 / 10 ^ 27

theorem db_sound : Sound db where
  names := by decide
  least := by decide +kernel

/-- Knobs as they are at the start. -/
def off : Knobs := ⟨false, false⟩

/-- Totals of four elements; no exchange site. -/
def four (ca : ℚ) : Name → ℚ := fun n =>
  if n = "Ca" then ca else if n = "C" ∨ n = "Mg" ∨ n = "Sr" then 1 / 100 else 0

/-- A cell with the four elements and perhaps a gas and solid solutions. -/
def cell (ca : ℚ) (gas : Option Gas) (ss : Option (List SS)) : Cell := ⟨four ca, 0, 111, 55, none, none, gas, ss⟩

theorem cell_ready (ca : ℚ) (h : ca = 1 / 100 ∨ ca = 2 / 100) (gas : Option Gas) (ss : Option (List SS)) :
    Ready db (cell ca gas ss) where
  totals := by
    have h1 : ∀ m ∈ db.masters, m.role ≠ .skip → four (1 / 100) m.name = 0 ∨ db.least < four (1 / 100) m.name := by
      decide +kernel
    have h2 : ∀ m ∈ db.masters, m.role ≠ .skip → four (2 / 100) m.name = 0 ∨ db.least < four (2 / 100) m.name := by
      decide +kernel
    rcases h with rfl | rfl
    · exact h1
    · exact h2
  sites := by
    have h1 : ∀ m ∈ db.masters, m.role = .ex → ¬ db.least < four (1 / 100) m.name := by decide +kernel
    have h2 : ∀ m ∈ db.masters, m.role = .ex → ¬ db.least < four (2 / 100) m.name := by decide +kernel
    intro m hm hr
    constructor
    · intro h'
      rcases h with rfl | rfl
      · exact absurd h' (h1 m hm hr)
      · exact absurd h' (h2 m hm hr)
    · intro h'
      cases h'
  known := fun e he => by cases he
  minerals := fun l hl => by cases hl

/-- A worker that must build its model. -/
def fresh : Worker := ⟨true, [], saveModel off (cell (1 / 100) none none)⟩

/-- What a case looks at: the unknowns. -/
def unknowns (r : Res Worker) : Res (List Unk) := r.bind fun w => .ok w.xs

/-- Two cells after each other. -/
def two (k₁ : Knobs) (c₁ : Cell) (k₂ : Knobs) (c₂ : Cell) : Res (List Unk) :=
  unknowns ((prep db k₁ c₁ fresh).bind fun w => prep db k₂ c₂ w)

/-- The solid solution "Carb" of calcite and a second carbonate. -/
def carb (second : Name) (v : ℚ) : Option (List SS) := some [⟨"Carb", [⟨"Calcite", 1⟩, ⟨second, v⟩]⟩]

/-- A case of kept equations: the amounts are those of the second cell. -/
theorem kept_case :
    two off (cell (1 / 100) none (carb "Magnesite" 3)) off (cell (2 / 100) none (carb "Magnesite" 0)) =
      .ok [.mb "C" (1 / 100), .mb "Ca" (2 / 100), .mb "Mg" (1 / 100), .mb "Sr" (1 / 100), .cb 0, .mh 1, .mh2o 55,
        .ss "Calcite" "Carb" "Calcite" 1, .ss "Magnesite" "Carb" "Magnesite" (1 / 10 ^ 27)] := by
  decide +kernel

/-- These two cells meet the hypotheses of `history_partial`. -/
theorem kept_clear :
    Clear db ⟨off, cell (1 / 100) none (carb "Magnesite" 3), id⟩ ⟨off, cell (2 / 100) none (carb "Magnesite" 0), id⟩ :=
  fun _ => ⟨rfl, rfl⟩

theorem kept_history : ∃ w₁ w₂ xs,
    runs db [⟨off, cell (1 / 100) none (carb "Magnesite" 3), List.map wipe⟩] fresh = .ok w₁ ∧
    prep db off (cell (2 / 100) none (carb "Magnesite" 0)) w₁ = .ok w₂ ∧
    build db off (cell (2 / 100) none (carb "Magnesite" 0)) = .ok xs ∧ w₂.xs.Perm xs := by
  refine history_partial db db_sound _ ⟨off, cell (2 / 100) none (carb "Magnesite" 0), id⟩ fresh rfl ?_ ?_
  · intro i hi
    rcases List.mem_append.1 hi with hi | hi <;> rw [List.mem_singleton] at hi <;> subst hi
    · refine ⟨cell_ready _ (.inl rfl) _ _, fun xs => ?_⟩
      rw [List.map_map]
      apply List.map_congr_left
      intro u _
      cases u <;> rfl
    · exact ⟨cell_ready _ (.inr rfl) _ _, fun xs => rfl⟩
  · exact List.isChain_cons_cons.2 ⟨fun _ => ⟨rfl, rfl⟩, .singleton _⟩

/-- Both cells are taken for the same. -/
theorem kept_same (w : Worker) (hw : Stands db off (cell (1 / 100) none (carb "Magnesite" 3)) w) :
    w.same db off (cell (2 / 100) none (carb "Strontianite" 5)) = true := by
  rw [kept_iff db db_sound off off _ _ (cell_ready _ (.inl rfl) _ _) (cell_ready _ (.inr rfl) _ _) w hw]
  refine ⟨?_, rfl, fun h => absurd rfl h, rfl, rfl⟩
  have h : ∀ m ∈ db.masters, m.role ≠ .skip → (0 < four (1 / 100) m.name ↔ 0 < four (2 / 100) m.name) := by
    decide +kernel
  exact h

/-- **Violation.** Two cells have a solid solution of the same name, the first of calcite and magnesite, the second of
calcite and strontianite. The second cell is calculated with the equations of magnesite: the five moles of strontianite
are the amount of an unknown for magnesite. Alone it gets an unknown for strontianite. -/
theorem other_components_kept :
    two off (cell (1 / 100) none (carb "Magnesite" 3)) off (cell (2 / 100) none (carb "Strontianite" 5)) =
      .ok [.mb "C" (1 / 100), .mb "Ca" (2 / 100), .mb "Mg" (1 / 100), .mb "Sr" (1 / 100), .cb 0, .mh 1, .mh2o 55,
        .ss "Calcite" "Carb" "Calcite" 1, .ss "Magnesite" "Carb" "Strontianite" 5] ∧
    build db off (cell (2 / 100) none (carb "Strontianite" 5)) =
      .ok [.mb "C" (1 / 100), .mb "Ca" (2 / 100), .mb "Mg" (1 / 100), .mb "Sr" (1 / 100), .cb 0, .mh 1, .mh2o 55,
        .ss "Calcite" "Carb" "Calcite" 1, .ss "Strontianite" "Carb" "Strontianite" 5] := by
  decide +kernel

/-- **Violation.** With a further component in the second cell, `quick_setup` uses a null pointer; with one component
less, an unknown of the first cell stays. -/
theorem more_components_fault :
    two off (cell (1 / 100) none (carb "Magnesite" 3)) off
      (cell (2 / 100) none (some [⟨"Carb", [⟨"Calcite", 1⟩, ⟨"Magnesite", 1⟩, ⟨"Strontianite", 1⟩]⟩])) = .ub ∧
    two off (cell (1 / 100) none (carb "Magnesite" 3)) off (cell (2 / 100) none (some [⟨"Carb", [⟨"Calcite", 7⟩]⟩])) =
      .ok [.mb "C" (1 / 100), .mb "Ca" (2 / 100), .mb "Mg" (1 / 100), .mb "Sr" (1 / 100), .cb 0, .mh 1, .mh2o 55,
        .ss "Calcite" "Carb" "Calcite" 7, .ss "Magnesite" "Carb" "Magnesite" 3] := by
  decide +kernel

/-- **Violation.** After a cell with a gas phase without components, a cell without a gas phase is a null pointer. -/
theorem empty_gas_fault :
    two off (cell (1 / 100) (some ⟨.pressure, false, []⟩) none) off (cell (2 / 100) none none) = .ub := by
  decide +kernel

/-- **Violation.** With `-numerical_fixed_volume`, a gas phase marked as ideal followed by one of the same gases marked as
real (the mark of a mixture is that of its first gas phase, GasPhase.cxx:101) reads beyond the end of `gas_unknowns`. -/
theorem other_gas_fault :
    two ⟨true, false⟩ (cell (1 / 100) (some ⟨.volume, false, [("CO2(g)", 1)]⟩) none)
      ⟨true, false⟩ (cell (2 / 100) (some ⟨.volume, true, [("CO2(g)", 1)]⟩) none) = .ub := by
  decide +kernel

/-- A case of another model: an element more, and the model is built. -/
theorem rebuilt_case :
    two off (cell 0 none none) off (cell (2 / 100) none none) = build db off (cell (2 / 100) none none) := by
  decide +kernel

/-- A case for the exchanger of a step: calcium and magnesium on the site `X`, which was listed in both components. -/
theorem exchanger_case :
    saveExch db (fun n => if n = "X" then 3 else 1) [[("Ca", 1), ("X", 2)], [("Mg", 1 / 2), ("X", 1)]] =
      [[("Ca", 0), ("X", 3)], [("Mg", 0), ("X", 0)]] ∧
    saveExch db (fun _ => 0) [[("X", 2)]] = [[("X", 1 / 10 ^ 25)]] := by
  decide +kernel

/-- A cell with calcium and magnesium on the exchange site `X`, which has two components; `X` has the total `x`. -/
def exCell (x : ℚ) (e : Exchange) : Cell :=
  ⟨fun n => if n = "Ca" ∨ n = "Mg" then 1 / 10 else if n = "X" then x else 0, 0, 111, 55, some e, none, none, none⟩

theorem exCell_ready : Ready db (exCell 3 [[("Ca", 1), ("X", 2)], [("Mg", 1 / 2), ("X", 1)]]) where
  totals := by decide +kernel
  sites := by decide +kernel
  known := by
    intro e he
    cases he
    decide +kernel
  minerals := fun l hl => by cases hl

/-- Two cells with exchangers: the second is set up with the unknowns of the first and its own amounts. -/
theorem exchange_kept_case :
    two off (exCell 3 [[("Ca", 1), ("X", 2)], [("Mg", 1 / 2), ("X", 1)]]) off (exCell 5 [[("Ca", 5 / 2), ("X", 5)]]) =
      .ok [.mb "Ca" (1 / 10), .mb "Mg" (1 / 10), .cb 0, .mh 1, .mh2o 55, .exch "X" 5] := by
  decide +kernel

end Verif.Reuse
