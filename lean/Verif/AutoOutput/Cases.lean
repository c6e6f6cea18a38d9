import Verif.AutoOutput.Names

/-!
# Cases and violations
-/

namespace Verif.AutoOutput

open Verif.OMap

/-- No generated name, in any case, is the name of one of the fixed BMI variables, so `GetValue`
always comes to the automatic part (`/repo/src/BMIPhreeqcRM.cpp:917-940`). -/
theorem auto_not_fixed (e : Entry) (name : Name) (h : lower name = lower e.name) :
    BMI.getEnum name = none := by
  have hstem : ∀ f ∈ Fam.all, '_' ∈ lower f.stem.toList := by decide +kernel
  have haround : ∀ f ∈ Fam.all, ∀ p ∈ f.around, '_' ∈ lower p.1.toList := by decide +kernel
  have hvars : ∀ v ∈ BMI.Var.all, '_' ∉ lower v.name.toList := by decide +kernel
  have hu : '_' ∈ lower e.name := by
    unfold Entry.name
    split
    · rename_i x a b _ hf
      rw [lower_append]
      exact List.mem_append_left _ (haround _ e.fam.mem_all (a, b) hf)
    · rw [lower_append]
      exact List.mem_append_left _ (hstem _ e.fam.mem_all)
  unfold BMI.getEnum
  rw [List.find?_eq_none]
  intro v hv hc
  have hc : lower v.name.toList = lower name := by simpa using hc
  rw [h] at hc
  exact hvars v (List.mem_reverse.mp hv) (by rw [hc]; exact hu)

/-- A small set of lists. -/
def caseLists : Lists where
  elements := ["Ca".toList, "Cl".toList]
  species := ["CO".toList, "Co".toList]
  exchange := [("CaX2".toList, "X".toList), ("NaX".toList, "X".toList)]
  surface := [("Hfo_wOH".toList, "Hfo_w".toList), ("Hfo_sOH".toList, "Hfo_s".toList)]
  equi := ["Calcite".toList]
  gases := ["CO2(g)".toList]
  kin := []
  ss := [("Calcite".toList, "Ca(Mg)CO3".toList)]
  calcs := ["r1".toList]
  si := []

/-- `caseLists` with the default options meets the conditions of `names_distinct` and of
`auto_columns_partial`; there are 25 variables. -/
theorem case_plain : Plain caseLists defaultDefs where
  elements := by unfold DistinctUpToCase; decide +kernel
  specM := by unfold DistinctUpToCase; decide +kernel
  specA := by unfold DistinctUpToCase; decide +kernel
  equi := by unfold DistinctUpToCase; decide +kernel
  gases := by unfold DistinctUpToCase; decide +kernel
  kin := by unfold DistinctUpToCase; decide +kernel
  calcs := by unfold DistinctUpToCase; decide +kernel
  si := by unfold DistinctUpToCase; decide +kernel
  exch := by unfold DistinctUpToCase; decide +kernel
  exchTot := by unfold DistinctUpToCase; decide +kernel
  surf := by unfold DistinctUpToCase; decide +kernel
  surfTot := by unfold DistinctUpToCase; decide +kernel
  ss := by unfold DistinctUpToCase; decide +kernel
  exchWord := by decide +kernel
  surfWord := by decide +kernel
  ssWord := by decide +kernel

example : (entries caseLists defaultDefs).length = 25 ∧
    processDef (S.init.defs .AddOutputVars) = .on ∧
    ((entries caseLists defaultDefs)[10]?).map Entry.name =
      some "exchange_total_molality_X".toList := by decide +kernel

/-- A run in which species and phases have different values. -/
def caseWorld : Expr → Nat → ℚ
  | e, _ => if e.arg = "CO".toList then 1 else if e.arg = "Co".toList then 2 else 3

/-- The variables are read as generated. -/
example : (getValue 2 "SOLUTION_TOTAL_MOLALITY_CA".toList
    (exec 2 [.gen caseLists, .run true caseWorld] S.init)).1 = .ok [3, 3] := by decide +kernel

/-- **C44** is violated: with species `CO` and `Co` both automatic, reading the variable of `CO`
returns the values of `Co`, and the list of names has lost the first. -/
theorem auto_columns_violated :
    let s := exec 1 [.add "SolutionMolalities".toList "TRUE".toList, .gen caseLists,
      .run true caseWorld] S.init
    let e : Entry := ⟨.specM, none, "CO".toList⟩
    e ∈ s.punch ∧ e.expr = ⟨.LM, "CO".toList⟩ ∧
    (getValue 1 e.name s).1 = .ok [caseWorld ⟨.LM, "Co".toList⟩ 0] ∧
    caseWorld ⟨.LM, "CO".toList⟩ 0 ≠ caseWorld ⟨.LM, "Co".toList⟩ 0 ∧
    e.name ∉ autoNames s := by decide +kernel

/-- Options for the next cases: nothing but element totals and calculated values. -/
def fewOptions : List Op :=
  [.add "SolutionProperties".toList "false".toList, .add "ExchangeMolalities".toList "false".toList,
   .add "SurfaceMolalities".toList "false".toList, .add "EquilibriumPhases".toList "false".toList,
   .add "Gases".toList "false".toList, .add "SolidSolutions".toList "false".toList]

def calcWorld : Expr → Nat → ℚ
  | e, _ => if e.fn = .CALC_VALUE then 7 else 3

/-- Generating again after an option was turned off leaves the old names in the list: the total
of Ca now reads the calculated value, the total of Cl reads past the end. -/
theorem regeneration_leaves_stale_names :
    let s := exec 1 (fewOptions ++ [.gen caseLists, .run true calcWorld,
      .add "SolutionTotalMolalities".toList "false".toList, .gen caseLists,
      .run true calcWorld]) S.init
    "solution_total_molality_Ca".toList ∈ autoNames s ∧
    "solution_total_molality_Cl".toList ∈ autoNames s ∧
    (getValue 1 "solution_total_molality_Ca".toList s).1 = .ok [7] ∧
    (getValue 1 "solution_total_molality_Cl".toList s).1 = .ub := by decide +kernel

/-- **C92** is violated: reading a listed variable before the first run leaves the (empty)
vector. -/
theorem read_before_run_overruns :
    let s := exec 1 [.gen caseLists] S.init
    "solution_ph".toList ∈ autoNames s ∧ (getValue 1 "solution_ph".toList s).1 = .ub := by
  decide +kernel

/-- **C92** is violated after a run with selected output switched off. -/
theorem read_with_output_off_overruns :
    let s := exec 1 [.gen caseLists, .run true caseWorld, .run false caseWorld] S.init
    "solution_ph".toList ∈ autoNames s ∧ (getValue 1 "solution_ph".toList s).1 = .ub := by
  decide +kernel

/-- An exchanger named like a total: two variables with the same name and heading, so that the
table has a column less and every later variable reads the wrong column, the last one past the
end. -/
theorem same_heading_shifts_columns :
    let L : Lists := { caseLists with
      exchange := [("Y".toList, "species_log_molality_X".toList),
        ("X".toList, "total_molality".toList)] }
    let s := exec 1 [.gen L, .run true calcWorld] S.init
    (getValue 1 "calculate_value_r1".toList s).1 = .ub ∧
    (getValue 1 "solid_solution_Ca(Mg)CO3_moles_Calcite".toList s).1 = .ok [7] := by
  decide +kernel

end Verif.AutoOutput
