import Lean.Util.CollectAxioms
import Lean.Elab.Command

import Verif.Base
import Verif.Ranges.Props
import Verif.Mapping.Props
import Verif.Rebalance.Props
import Verif.Store.Props
import Verif.Transfer.Props
import Verif.PartitionUZ.Props
import Verif.NameDouble.Props
import Verif.Serial.NameDouble
import Verif.Conc.Props
import Verif.Getters.Props
import Verif.Getters.Logs
import Verif.Protocol.Props
import Verif.State.Props
import Verif.SelOut.Read
import Verif.Components.Groups
import Verif.Mixing.SolutionProps
import Verif.Mixing.Partition
import Verif.InitCond.Cases
import Verif.Gas.Cases
import Verif.Setters.Cases
import Verif.Registry.Cases
import Verif.BMI.Cases
import Verif.AutoOutput.Cases
import Verif.Yaml.Cases
import Verif.Dump.Cases
import Verif.CellList.Cases
import Verif.FString.Cases
import Verif.Pack.Cases
import Verif.Scatter.Cases
import Verif.Steps.Cases
import Verif.Routing.Cases
import Verif.Boundary.Cases
import Verif.CheckCells.Props
import Verif.Utility.Props
import Verif.Species.Props
import Verif.Species.BoundaryProps
import Verif.Formula.Props
import Verif.Formula.Weight
import Verif.CellCopy.Props
import Verif.SelNav.Props
import Verif.Raw.ExchangeProps
import Verif.Raw.SolutionProps
import Verif.Raw.GasProps
import Verif.Raw.BlocksProps
import Verif.Raw.KineticsProps
import Verif.Raw.PPProps
import Verif.Raw.SSProps
import Verif.Raw.SurfaceProps
import Verif.Raw.FileProps
import Verif.Serial.CellsProps
import Verif.MpiMove.Props
import Verif.Lockstep.Comm
import Verif.Lockstep.CommLemmas
import Verif.Lockstep.Prog
import Verif.Lockstep.Model
import Verif.Lockstep.Together
import Verif.Lockstep.Served
import Verif.Lockstep.Spec
import Verif.Lockstep.Setters
import Verif.Lockstep.Cells
import Verif.Lockstep.Hoare
import Verif.Lockstep.Calls
import Verif.Lockstep.Calls2
import Verif.Lockstep.Calls3
import Verif.Lockstep.Moves
import Verif.Lockstep.Run
import Verif.Lockstep.Session
import Verif.Lockstep.Sched
import Verif.Lockstep.Verdict
import Verif.Lockstep.SchedBuf
import Verif.Lockstep.Ends
import Verif.Lockstep.EndsLemmas
import Verif.Lockstep.Demo
import Verif.Lockstep.Props
import Verif.Lockstep.Violations
import Verif.Lockstep.ReadingsLemmas
import Verif.Lockstep.Readings
import Verif.IPq.Model
import Verif.IPq.Spec
import Verif.IPq.Lemmas
import Verif.IPq.Runs
import Verif.IPq.Sessions
import Verif.IPq.Keeps
import Verif.IPq.Holds
import Verif.IPq.Props
import Verif.IPq.Demo
import Verif.IPq.Violations
import Verif.Input.Model
import Verif.Input.Spec
import Verif.Input.Lemmas
import Verif.Input.Printed
import Verif.Input.Props
import Verif.Input.Demo
import Verif.Input.Violations
import Verif.Pbasic.Model
import Verif.Pbasic.Spec
import Verif.Pbasic.Ops
import Verif.Pbasic.Fuel
import Verif.Pbasic.Expr
import Verif.Pbasic.Struct
import Verif.Pbasic.Sim
import Verif.Pbasic.Skip
import Verif.Pbasic.Lines
import Verif.Pbasic.Exec
import Verif.Pbasic.DataSpec
import Verif.Pbasic.Data
import Verif.Pbasic.Cells
import Verif.Pbasic.Jump
import Verif.Pbasic.Props
import Verif.Pbasic.Demo
import Verif.Pbasic.Violations
import Verif.Pbasic.Lex
import Verif.Pbasic.LexSpec
import Verif.Pbasic.LexProof
import Verif.Pbasic.LexLines
import Verif.Pbasic.LexCase
import Verif.Pbasic.LexProps
import Verif.Pbasic.LexDemo
import Verif.CellRun.Props
import Verif.CellRun.Demo
import Verif.CellRun.ThreadProps
import Verif.Equation.Model
import Verif.Equation.Spec
import Verif.Equation.Combine
import Verif.Equation.Check
import Verif.Equation.Charge
import Verif.Equation.Read
import Verif.Equation.Tokens
import Verif.Equation.Props
import Verif.Equation.Balance
import Verif.Reaction.Model
import Verif.Reaction.Spec
import Verif.Reaction.Combine
import Verif.Reaction.Rewrite
import Verif.Reaction.Phases
import Verif.Reaction.Props
import Verif.Reaction.MassModel
import Verif.Reaction.Mass
import Verif.Reaction.Couple
import Verif.Reaction.MassProps
import Verif.Reaction.Ends
import Verif.Kinetics.Model
import Verif.Kinetics.Spec
import Verif.Kinetics.Steps
import Verif.Kinetics.Loop
import Verif.Kinetics.Facts
import Verif.Kinetics.Times
import Verif.Kinetics.Props
import Verif.Kinetics.Cases
import Verif.Assemble.Model
import Verif.Assemble.Spec
import Verif.Assemble.Sums
import Verif.Assemble.Solids
import Verif.Assemble.Ends
import Verif.Assemble.Each
import Verif.Assemble.Limits
import Verif.Assemble.Props
import Verif.Assemble.Props2
import Verif.Assemble.Cases
import Verif.Reuse.Model
import Verif.Reuse.Spec
import Verif.Reuse.Sites
import Verif.Reuse.Fits
import Verif.Reuse.Quick
import Verif.Reuse.Props
import Verif.Reuse.Cases
import Verif.CArrays.Model
import Verif.CArrays.Spec
import Verif.CArrays.Lemmas
import Verif.CArrays.Props
import Verif.Print.Props
import Verif.CTables.Props
import Verif.Files.Props
import Verif.Agree.Props
import Verif.CBoundary.Props
import Verif.CInit.Model
import Verif.CInit.Props
import Verif.CInit.OneModel
import Verif.CInit.OneProps
import Verif.Catalog.Model
import Verif.Catalog.Props
import Verif.Python.Model
import Verif.Python.Props
import Verif.Python.SetModel
import Verif.Python.SetProps
import Verif.Catalog.CModel
import Verif.Catalog.CProps

/-!
# Axioms of the property theorems

`#axioms_of thm₁ thm₂ ...` prints the axioms each theorem depends on and fails the build if one
of them is not `propext`, `Classical.choice` or `Quot.sound`. The theorems are those of
`MANIFEST.json`, by property.
-/

open Lean Elab Command in
/-- Prints the axioms of each theorem and rejects all but the three of Lean. -/
elab "#axioms_of" ids:ident* : command => do
  for id in ids do
    let n ← liftCoreM <| realizeGlobalConstNoOverloadWithInfo id
    let axs ← liftCoreM <| collectAxioms n
    for a in axs do
      unless a = ``propext ∨ a = ``Classical.choice ∨ a = ``Quot.sound do
        throwErrorAt id m!"{n} depends on {a}"
    logInfoAt id m!"{n}: {axs.toList}"

/-! C01 -/

#axioms_of
  Verif.Ranges.setEndCells_partition
  Verif.Ranges.setEndCells_empty_range

/-! C02 -/

#axioms_of
  Verif.Mapping.createMapping_consistent
  Verif.Mapping.construct_consistent
  Verif.Mapping.createMapping_history

/-! C03 -/

#axioms_of
  Verif.Mapping.createMapping_accepts_iff
  Verif.Mapping.createMapping_total

/-! C04 -/

#axioms_of
  Verif.Mapping.createMapping_rejected_unchanged_violated
  Verif.Mapping.createMapping_rejected_dangling
  Verif.Mapping.createMapping_rejected_unchanged_partial

/-! C05 -/

#axioms_of
  Verif.Rebalance.rebalanceLoad_partition
  Verif.Rebalance.rebalanceLoad_no_times_ub
  Verif.Rebalance.rebalanceLoad_fraction_violated

/-! C06 -/

#axioms_of
  Verif.Rebalance.rebalancePerCell_partition_partial
  Verif.Rebalance.rebalancePerCell_partition_violated

/-! C07 -/

#axioms_of
  Verif.Transfer.redistribute_lossless

/-! C08 -/

#axioms_of
  Verif.Transfer.run_independent
  Verif.Transfer.run_error_independent

/-! C09 -/

#axioms_of
  Verif.PartitionUZ.history_conserves
  Verif.PartitionUZ.partitionUZ_conserves
  Verif.Mixing.partition_conserves_moles
  Verif.Mixing.history_conserves_moles

/-! C10 -/

#axioms_of
  Verif.PartitionUZ.fractions_spec

/-! C11 -/

#axioms_of
  Verif.PartitionUZ.drift_violated
  Verif.PartitionUZ.drift_unbounded
  Verif.PartitionUZ.drift_partial

/-! C12 -/

#axioms_of
  Verif.Conc.setConcentrations_stores

/-! C13 -/

#axioms_of
  Verif.Conc.set_get_elements
  Verif.Conc.set_get_tiny_lost

/-! C14 -/

#axioms_of
  Verif.Conc.set_get_water_conserved

/-! C15 -/

#axioms_of
  Verif.Conc.set_get_water_partial
  Verif.Conc.set_get_water_violated

/-! C16 -/

#axioms_of
  Verif.Conc.getConcentrations_grid
  Verif.Gas.getGasComp_grid

/-! C17 -/

#axioms_of
  Verif.Getters.density_inactive_partial
  Verif.Getters.density_inactive_empty
  Verif.Getters.saturation_inactive_partial
  Verif.Getters.density_inactive_violated

/-! C18 -/

#axioms_of
  Verif.State.states_refine
  Verif.Gas.gas_survives_violated

/-! C19 -/

#axioms_of
  Verif.State.apply_restores_partial
  Verif.State.apply_restores_reads_violated
  Verif.State.apply_restores_runs_violated

/-! C20 -/

#axioms_of
  Verif.Protocol.ith_equals_set
  Verif.Protocol.ith_subset_fails
  Verif.Protocol.no_leak_partial
  Verif.Protocol.no_leak_violated

/-! C21 -/

#axioms_of
  Verif.Protocol.getIth_slice_partial
  Verif.Protocol.getIth_slice_violated
  Verif.Protocol.conc_stable

/-! C22 -/

#axioms_of
  Verif.Protocol.missing_fails_partial
  Verif.Protocol.missing_fails_violated
  Verif.Protocol.later_runs_unchecked

/-! C23 -/

#axioms_of
  Verif.SelOut.table_refines
  Verif.SelOut.table_rectangular

/-! C24 -/

#axioms_of
  Verif.SelOut.blank_rows_partial
  Verif.SelOut.blank_rows_violated

/-! C25 -/

#axioms_of
  Verif.SelOut.row_serialisation

/-! C26 -/

#axioms_of
  Verif.SelOut.owners_partial
  Verif.SelOut.owners_violated

/-! C27 -/

#axioms_of
  Verif.Components.components_spec
  Verif.Components.components_kept
  Verif.Components.components_nodup
  Verif.Components.components_count
  Verif.Components.repeat_partial

/-! C28 -/

#axioms_of
  Verif.Components.toggle_violated
  Verif.Components.toggle_partial

/-! C29 -/

#axioms_of
  Verif.Components.ss_names_violated
  Verif.Components.ss_shared_violated
  Verif.Components.ss_names_partial
  Verif.Components.ss_first_call_partial

/-! C30 -/

#axioms_of
  Verif.InitCond.one_kind_same
  Verif.InitCond.one_kind

/-! C31 -/

#axioms_of
  Verif.InitCond.initial_amounts

/-! C32 -/

#axioms_of
  Verif.InitCond.initial_fails_partial
  Verif.InitCond.initial_fails_violated
  Verif.InitCond.initial_atomic_violated

/-! C33 -/

#axioms_of
  Verif.Gas.set_get_partial
  Verif.Gas.set_get_violated

/-! C34 -/

#axioms_of
  Verif.Setters.handler_modes

/-! C35 -/

#axioms_of
  Verif.Setters.grid_setters

/-! C36 -/

#axioms_of
  Verif.Setters.units_defined

/-! C37 -/

#axioms_of
  Verif.Registry.ids_never_reused
  Verif.Registry.destroyBMI_spec
  Verif.Registry.id_wraps

/-! C38 -/

#axioms_of
  Verif.Registry.cleanup_returns_violated
  Verif.Registry.cleanupBMI_hangs
  Verif.Registry.cleanupBMI_partial
  Verif.Registry.destroyAll_empties

/-! C39 -/

#axioms_of
  Verif.BMI.counts_are_lengths

/-! C40 -/

#axioms_of
  Verif.BMI.name_lookup
  Verif.BMI.lists_of_names
  Verif.BMI.set_listed
  Verif.BMI.set_unlisted
  Verif.BMI.get_listed
  Verif.BMI.get_unlisted
  Verif.BMI.ptr_unlisted
  Verif.BMI.set_listed_violated
  Verif.BMI.components_pointer_is_null
  Verif.BMI.headings_unlisted

/-! C41 -/

#axioms_of
  Verif.BMI.clock_ticks
  Verif.BMI.time_never_goes_back
  Verif.BMI.update_ends_at_end_time
  Verif.BMI.until_ends_exactly

/-! C42 -/

#axioms_of
  Verif.BMI.raw_read_partial
  Verif.BMI.raw_write_partial
  Verif.BMI.get_listed
  Verif.BMI.set_listed
  Verif.BMI.one_cell_read_violated
  Verif.BMI.one_cell_write_violated

/-! C43 -/

#axioms_of
  Verif.BMI.pointers_follow_updates_partial
  Verif.BMI.pointers_follow_until_partial
  Verif.BMI.pointer_dangles

/-! C44 -/

#axioms_of
  Verif.AutoOutput.auto_columns_partial
  Verif.AutoOutput.names_distinct
  Verif.AutoOutput.auto_not_fixed
  Verif.AutoOutput.case_twin_hidden
  Verif.AutoOutput.auto_columns_violated
  Verif.AutoOutput.regeneration_leaves_stale_names
  Verif.AutoOutput.same_heading_shifts_columns

/-! C45 -/

#axioms_of
  Verif.Yaml.replay_partial
  Verif.Yaml.replay_unknown
  Verif.Yaml.replay_violated
  Verif.Yaml.replay_violated_nth
  Verif.Yaml.names_nodup

/-! C46 -/

#axioms_of
  Verif.Serial.nameLists_roundTrip
  Verif.Serial.emptyName_shifts_values
  Verif.Serial.lossless_ND

/-! C47 -/

#axioms_of
  Verif.NameDouble.simplifyRedox_spec
  Verif.NameDouble.simplifyRedox_total
  Verif.NameDouble.getTotalElement_spec
  Verif.NameDouble.simplifyRedox_names_needed

/-! C48 -/

#axioms_of
  Verif.NameDouble.mergeRedox_partial
  Verif.NameDouble.mergeRedox_violated
  Verif.NameDouble.mergeRedox_frame

/-! C49 -/

#axioms_of
  Verif.Mixing.exchange_mix
  Verif.Mixing.pp_mix_partial
  Verif.Mixing.pp_mix_violated
  Verif.Mixing.kinetics_mix
  Verif.Mixing.ss_mix
  Verif.Mixing.surface_mix

/-! C50 -/

#axioms_of
  Verif.Mixing.mix_extensive
  Verif.Mixing.mix_intensive
  Verif.Mixing.mix_between
  Verif.Mixing.mix_order

/-! C51 -/

#axioms_of
  Verif.NameDouble.addIntensive_partial
  Verif.NameDouble.addIntensive_violated
  Verif.NameDouble.addExtensive_spec
  Verif.NameDouble.multiply_spec

/-! C52 -/

#axioms_of
  Verif.Mixing.area_violated
  Verif.Mixing.area_pair_partial
  Verif.Mixing.area_mix_partial

/-! C53 -/

#axioms_of
  Verif.Mixing.gas_mix_violated
  Verif.Mixing.gas_mix_partial

/-! C54 -/

#axioms_of
  Verif.Store.copy_spec
  Verif.Store.remove_spec
  Verif.Store.add_spec

/-! C55 -/

#axioms_of
  Verif.Dump.dump_complete_partial
  Verif.Dump.dump_module_read_partial
  Verif.Dump.dump_gas_lost

/-! C56 -/

#axioms_of
  Verif.Dump.dump_read_partial
  Verif.Dump.dump_pressure_lost
  Verif.Dump.dump_no_pressure

/-! C57 -/

#axioms_of
  Verif.CellList.list_selects_partial
  Verif.CellList.range_to_max_ub

/-! C58 -/

#axioms_of
  Verif.FString.padC_partial
  Verif.FString.padC_result
  Verif.FString.report_violated
  Verif.FString.exact_fit_reported
  Verif.FString.padF_partial
  Verif.FString.fortran_truncates_silently
  Verif.FString.negative_length

/-! C59 -/

#axioms_of
  Verif.Pack.cells_arrive_partial
  Verif.Pack.packing_not_lossless
  Verif.Pack.viscos_0_lost
  Verif.Pack.ddl_viscosity_lost
  Verif.Pack.temperature_lost
  Verif.Pack.misnumbered_gas_lost
  Verif.Pack.gas_phase_lost
  Verif.Pack.empty_cells_undefined
  Verif.Pack.unpack_turns

/-! C60 -/

#axioms_of
  Verif.Scatter.gather_scatter_partial
  Verif.Scatter.gather_scatter_symmetric
  Verif.Scatter.gather_scatter_violated

/-! C61 -/

#axioms_of
  Verif.Steps.equal_increments_partial
  Verif.Steps.explicit_steps
  Verif.Steps.read_equal
  Verif.Steps.missing_count_violated

/-! C62 -/

#axioms_of
  Verif.Routing.runString_partial
  Verif.Routing.nul_violated
  Verif.Routing.print_race_violated

/-! C63 -/

#axioms_of
  Verif.Boundary.boundary_partial
  Verif.Boundary.boundarySimple_partial
  Verif.Boundary.boundary_empty
  Verif.Boundary.boundary_unready
  Verif.Boundary.missing_violated
  Verif.Boundary.missing_second_violated
  Verif.Boundary.ignored_fraction_violated
  Verif.Boundary.mix_number_violated
  Verif.Boundary.mass_fraction_violated

/-! C64 -/

#axioms_of
  Verif.Transfer.redistribute_reaction_violated

/-! C65 -/

#axioms_of
  Verif.Transfer.redistribute_uz_violated
  Verif.Transfer.redistribute_uz_partial

/-! C66 -/

#axioms_of
  Verif.PartitionUZ.partitionUZ_proportional

/-! C67 -/

#axioms_of
  Verif.Getters.density_reports_missing_violated
  Verif.Getters.density_always_ok
  Verif.Getters.saturation_missing_empty

/-! C68 -/

#axioms_of
  Verif.Getters.fill_inactive_partial
  Verif.Getters.viscosity_inactive_violated

/-! C69 -/

#axioms_of
  Verif.Getters.species_right_partial
  Verif.Getters.getSpecies_partial
  Verif.Getters.species_right_violated

/-! C70 -/

#axioms_of
  Verif.Conc.getConcentrations_repeat
  Verif.Conc.simplifyRedox_idem

/-! C71 -/

#axioms_of
  Verif.Components.ss_groups

/-! C72 -/

#axioms_of
  Verif.Components.repeat_violated
  Verif.Components.repeat_partial

/-! C73 -/

#axioms_of
  Verif.Components.surfaces_aligned
  Verif.Components.exchangers_aligned

/-! C74 -/

#axioms_of
  Verif.Components.name_lists

/-! C75 -/

#axioms_of
  Verif.Mixing.species_mix_violated
  Verif.Mixing.species_mix_partial

/-! C76 -/

#axioms_of
  Verif.Mixing.isotope_ratio_violated
  Verif.Mixing.isotope_ratio_partial
  Verif.Mixing.mix_extensive

/-! C77 -/

#axioms_of
  Verif.InitCond.initial_amounts

/-! C78 -/

#axioms_of
  Verif.InitCond.initial_stale_violated
  Verif.InitCond.initial_amounts

/-! C79 -/

#axioms_of
  Verif.Gas.set_get_volume

/-! C80 -/

#axioms_of
  Verif.Gas.get_set_partial
  Verif.Gas.get_set_violated

/-! C81 -/

#axioms_of
  Verif.Gas.gas_survives_violated
  Verif.Gas.gas_numbers_partial
  Verif.Gas.new_phase_number

/-! C82 -/

#axioms_of
  Verif.Setters.pressure_round_trip
  Verif.Setters.temperature_round_trip

/-! C83 -/

#axioms_of
  Verif.Setters.error_string

/-! C84 -/

#axioms_of
  Verif.Setters.refused_unchanged_partial
  Verif.Setters.refused_unchanged_violated
  Verif.Setters.refused_names_change

/-! C85 -/

#axioms_of
  Verif.Registry.destroy_defined_violated
  Verif.Registry.destroy_defined_partial

/-! C86 -/

#axioms_of
  Verif.Registry.thread_safe_violated
  Verif.Registry.two_destroys_race
  Verif.Registry.double_delete
  Verif.Registry.creators_partial
  Verif.Registry.one_destroyer_partial

/-! C87 -/

#axioms_of
  Verif.BMI.calls_are_safe_partial
  Verif.BMI.ready_after
  Verif.BMI.early_set_overflows
  Verif.BMI.early_direct_set_overflows

/-! C88 -/

#axioms_of
  Verif.BMI.prefix_read_whole_partial
  Verif.BMI.error_string_cut
  Verif.BMI.error_string_overread

/-! C89 -/

#axioms_of
  Verif.BMI.thrown_run_stays_partial
  Verif.BMI.failed_run_advances

/-! C90 -/

#axioms_of
  Verif.BMI.wrong_size_changes_nothing_partial
  Verif.BMI.wrong_size_returns

/-! C91 -/

#axioms_of
  Verif.BMI.direct_setters_show_partial
  Verif.BMI.direct_setter_unseen

/-! C92 -/

#axioms_of
  Verif.AutoOutput.auto_read_safe_partial
  Verif.AutoOutput.read_before_run_overruns
  Verif.AutoOutput.read_with_output_off_overruns
  Verif.AutoOutput.regeneration_leaves_stale_names

/-! C93 -/

#axioms_of
  Verif.Yaml.counts_partial
  Verif.Yaml.counts_violated

/-! C94 -/

#axioms_of
  Verif.Yaml.names_ignored_partial
  Verif.Yaml.order_matters
  Verif.Yaml.missing_item_ub

/-! C95 -/

#axioms_of
  Verif.Yaml.returns_ok_partial
  Verif.Yaml.failure_unreported

/-! C96 -/

#axioms_of
  Verif.Dump.dump_defined_iff

/-! C97 -/

#axioms_of
  Verif.Dump.digits_partial
  Verif.Dump.digits_exact
  Verif.Dump.digits_violated

/-! C98 -/

#axioms_of
  Verif.CellList.out_of_range_selects_all
  Verif.CellList.not_a_number_selects_all
  Verif.CellList.exponent_cut

/-! C99 -/

#axioms_of
  Verif.CellList.delete_partial
  Verif.CellList.delete_all
  Verif.CellList.delete_all_narrowed
  Verif.CellList.delete_kind_narrowed

/-! C100 -/

#axioms_of
  Verif.FString.index_partial
  Verif.FString.index_count_undefined
  Verif.FString.bmiName_undefined

/-! C101 -/

#axioms_of
  Verif.FString.terminated_partial

/-! C102 -/

#axioms_of
  Verif.FString.names_partial
  Verif.FString.names_head_partial
  Verif.FString.empty_list_status
  Verif.FString.long_name_cut

/-! C103 -/

#axioms_of
  Verif.FString.prefix_returned
  Verif.FString.error_returned
  Verif.FString.input_arrives

/-! C104 -/

#axioms_of
  Verif.Pack.move_partial

/-! C105 -/

#axioms_of
  Verif.Scatter.scatter_gather

/-! C106 -/

#axioms_of
  Verif.Steps.reaction_amounts
  Verif.Steps.reaction_read

/-! C107 -/

#axioms_of
  Verif.Steps.runCells_time_partial
  Verif.Steps.na_time_step_violated

/-! C108 -/

#axioms_of
  Verif.Steps.total_time_partial
  Verif.Steps.total_time_violated

/-! C109 -/

#axioms_of
  Verif.Steps.ramp

/-! C110 -/

#axioms_of
  Verif.Steps.convert_time

/-! C111 -/

#axioms_of
  Verif.Routing.runFile_partial
  Verif.Routing.empty_file_violated

/-! C112 -/

#axioms_of
  Verif.Routing.loadDatabase_partial
  Verif.Routing.load_exception_violated
  Verif.Routing.load_empty

/-! C113 -/

#axioms_of
  Verif.CheckCells.checkCells_partial
  Verif.CheckCells.message_violated

/-! C114 -/

#axioms_of
  Verif.Utility.toUtility_partial
  Verif.Utility.mass_fraction_violated
  Verif.Utility.not_positive_violated
  Verif.Utility.before_findComponents_violated
  Verif.Utility.more_than_cells_violated

/-! C115 -/

#axioms_of
  Verif.Species.speciesToModule_partial
  Verif.Species.speciesToModule_off
  Verif.Species.short_vector_violated
  Verif.Species.dry_cell_emptied

/-! C116 -/

#axioms_of
  Verif.Species.boundarySp_partial
  Verif.Species.boundarySpSimple_partial
  Verif.Species.boundarySp_refused
  Verif.Species.one_sided_violated
  Verif.Species.unknown_species_violated
  Verif.Species.missing_sp_violated

/-! C117 -/

#axioms_of
  Verif.Formula.elements_partial
  Verif.Formula.elements_electron
  Verif.Formula.accepted_partial
  Verif.Formula.parse_total
  Verif.Formula.two_colons_violated
  Verif.Formula.colon_in_group_violated
  Verif.Formula.lone_point_violated
  Verif.Formula.open_bracket_violated
  Verif.Formula.missing_bracket_reported

/-! C118 -/

#axioms_of
  Verif.Formula.gfwAll_partial
  Verif.Formula.getGfw_partial
  Verif.Formula.memory_transparent
  Verif.Formula.faithful_nil
  Verif.Formula.no_weight_violated
  Verif.Formula.unreadable_violated
  Verif.Formula.long_formula_violated

/-! C119 -/

#axioms_of
  Verif.CellCopy.cell_copied_partial
  Verif.CellCopy.cell_refused
  Verif.CellCopy.cell_removed_violated
  Verif.CellCopy.cell_mix_violated
  Verif.CellCopy.cell_range_violated
  Verif.CellCopy.cell_shared_violated

/-! C120 -/

#axioms_of
  Verif.SelNav.cycle_partial
  Verif.SelNav.count_violated
  Verif.SelNav.count_off_violated
  Verif.SelNav.database_violated

/-! C121 -/

#axioms_of
  Verif.SelNav.selection_partial
  Verif.SelNav.run_selects
  Verif.SelNav.selection_violated
  Verif.SelNav.undefined_selected_violated

/-! C122 -/

#axioms_of
  Verif.Raw.exchange_restart_partial
  Verif.Raw.exchange_redump
  Verif.Raw.exchange_lanthanum_violated
  Verif.Raw.exchange_component_violated
  Verif.Raw.exchange_totals_violated

/-! C123 -/

#axioms_of
  Verif.Raw.solution_restart_partial
  Verif.Raw.solution_redump
  Verif.Raw.solution_fluoride_violated
  Verif.Raw.solution_isotopes_violated

/-! C124 -/

#axioms_of
  Verif.Raw.gas_restart_partial
  Verif.Raw.gas_redump
  Verif.Raw.gas_pressure_violated

/-! C125 -/

#axioms_of
  Verif.Raw.temperature_restart
  Verif.Raw.pressure_restart
  Verif.Raw.reaction_restart
  Verif.Raw.mix_restart

/-! C126 -/

#axioms_of
  Verif.Raw.kinetics_restart
  Verif.Raw.kinetics_redump

/-! C127 -/

#axioms_of
  Verif.Raw.pp_restart_partial
  Verif.Raw.pp_redump
  Verif.Raw.pp_silicon_violated

/-! C128 -/

#axioms_of
  Verif.Raw.ss_restart_partial
  Verif.Raw.ss_redump
  Verif.Raw.ss_phosphorus_violated

/-! C129 -/

#axioms_of
  Verif.Raw.surface_restart_partial
  Verif.Raw.surface_redump
  Verif.Raw.surface_viscosity_violated
  Verif.Raw.surface_lanthanum_violated
  Verif.Raw.surface_totals_violated

/-! C130 -/

#axioms_of
  Verif.Raw.dump_file_restart_partial
  Verif.Raw.dump_file_redump

/-! C131 -/

#axioms_of
  Verif.Serial.cells_sent_partial
  Verif.Serial.viscos0_violated
  Verif.Serial.calcViscosity_violated
  Verif.Serial.unknown_tag_throws

/-! C132 -/

#axioms_of
  Verif.MpiMove.mpi_redistribute_partial
  Verif.MpiMove.mpi_temperature_violated

/-! C133 -/

#axioms_of
  Verif.Lockstep.sessions_end_partial
  Verif.Lockstep.mask_short_hangs
  Verif.Lockstep.transfer_failure_hangs
  Verif.Lockstep.other_communicator_hangs

/-! C134 -/

#axioms_of
  Verif.Lockstep.settings_everywhere_partial

/-! C135 -/

#axioms_of
  Verif.Lockstep.cells_have_values_partial
  Verif.Lockstep.apply_loses_cells

/-! C136 -/

#axioms_of
  Verif.Lockstep.load_reports_partial
  Verif.Lockstep.runFile_reports_partial
  Verif.Lockstep.runString_reports_partial
  Verif.Lockstep.runCells_reports_partial
  Verif.Lockstep.initial_failure_unseen

/-! C137 -/

#axioms_of
  Verif.IPq.accumulated_partial
  Verif.IPq.accumulated_run_partial
  Verif.IPq.Violations.lines_kept_after_exception

/-! C138 -/

#axioms_of
  Verif.IPq.lines_partial
  Verif.IPq.messages_lines_partial
  Verif.IPq.Violations.no_lines_after_stop
  Verif.IPq.Violations.old_error_lines
  Verif.IPq.Violations.no_error_lines_after_load

/-! C139 -/

#axioms_of
  Verif.IPq.reports_partial
  Verif.IPq.Violations.database_warning_lost

/-! C140 -/

#axioms_of
  Verif.IPq.database_partial
  Verif.IPq.Violations.failed_load_is_loaded

/-! C141 -/

#axioms_of
  Verif.IPq.components_partial
  Verif.IPq.Violations.stale_components

/-! C142 -/

#axioms_of
  Verif.IPq.switches_partial
  Verif.IPq.Violations.switches_lost

/-! C143 -/

#axioms_of
  Verif.IPq.dump_lines
  Verif.IPq.dump_text

/-! C144 -/

#axioms_of
  Verif.IPq.selected_strings_partial
  Verif.IPq.Violations.wrong_switch

/-! C145 -/

#axioms_of
  Verif.IPq.defined_partial
  Verif.IPq.Violations.undefined_after_exception

/-! C146 -/

#axioms_of
  Verif.Input.lines_of_text_partial
  Verif.Input.every_text_has_parts
  Verif.Input.dos_text_reads_same
  Verif.Input.comment_behind_backslash_is_read
  Verif.Input.semicolon_behind_backslash_is_text

/-! C147 -/

#axioms_of
  Verif.Input.includes_expanded_partial
  Verif.Input.includes_end
  Verif.Input.self_include_never_ends

/-! C148 -/

#axioms_of
  Verif.Input.printed_lines_read_back
  Verif.Input.tokens_are_words

/-! C149 -/

#axioms_of
  Verif.Pbasic.program_lines
  Verif.Pbasic.deleted_lines

/-! C150 -/

#axioms_of
  Verif.Pbasic.expression_value
  Verif.Pbasic.expression_written
  Verif.Pbasic.expression_unambiguous

/-! C151 -/

#axioms_of
  Verif.Pbasic.conditions_combine_partial
  Verif.Pbasic.Violations.not_of_condition

/-! C152 -/

#axioms_of
  Verif.Pbasic.array_store
  Verif.Pbasic.array_range

/-! C153 -/

#axioms_of
  Verif.Pbasic.structured_program
  Verif.Pbasic.structured_part

/-! C154 -/

#axioms_of
  Verif.Pbasic.for_loop_times

/-! C155 -/

#axioms_of
  Verif.Pbasic.read_in_order
  Verif.Pbasic.read_too_many
  Verif.Pbasic.data_at_start
  Verif.Pbasic.restored_data
  Verif.Pbasic.data_does_nothing

/-! C156 -/

#axioms_of
  Verif.Pbasic.goto_line
  Verif.Pbasic.on_goto
  Verif.Pbasic.on_gosub_partial
  Verif.Pbasic.Violations.on_gosub_leaves_a_call

/-! C157 -/

#axioms_of
  Verif.Pbasic.first_use_partial
  Verif.Pbasic.Violations.nested_comma_at_first_use

/-! C158 -/

#axioms_of
  Verif.Pbasic.line_tokens
  Verif.Pbasic.parentheses_counted
  Verif.Pbasic.quote_closed
  Verif.Pbasic.line_unambiguous
  Verif.Pbasic.line_exists
  Verif.Pbasic.letter_size
  Verif.Pbasic.long_names_are_one
  Verif.Pbasic.long_names_coincide
  Verif.Pbasic.go_to_not_found

/-! C159 -/

#axioms_of
  Verif.Pbasic.text_lines
  Verif.Pbasic.text_in_order
  Verif.Pbasic.semicolon_in_string
  Verif.Pbasic.semicolon_between_items
  Verif.Pbasic.semicolon_before_number

/-! C160 -/

#axioms_of
  Verif.Pbasic.text_runs

/-! C161 -/

#axioms_of
  Verif.CellRun.run_cells_refines
  Verif.CellRun.run_cells_repeatable

/-! C162 -/

#axioms_of
  Verif.CellRun.cells_on_their_own_partial
  Verif.CellRun.order_irrelevant_partial
  Verif.CellRun.calls_may_be_split
  Verif.CellRun.mix_sees_treated_violation

/-! C163 -/

#axioms_of
  Verif.CellRun.only_named_cells

/-! C164 -/

#axioms_of
  Verif.CellRun.last_step_alone
  Verif.CellRun.one_step_modes_agree
  Verif.CellRun.one_row_per_step
  Verif.CellRun.steps_depend_on_history_violation

/-! C165 -/

#axioms_of
  Verif.CellRun.time_advances_partial
  Verif.CellRun.time_advances_violation

/-! C166 -/

#axioms_of
  Verif.CellRun.finished_not_again
  Verif.CellRun.failed_still_defined
  Verif.CellRun.failed_runs_again_violation

/-! C167 -/

#axioms_of
  Verif.CellRun.worker_treats_once_partial
  Verif.CellRun.nothing_left_over
  Verif.CellRun.failed_cell_reacts_twice_violation
  Verif.CellRun.first_failure_unnoticed

/-! C168 -/

#axioms_of
  Verif.CellRun.threads_agree

/-! C169 -/

#axioms_of
  Verif.Equation.balanced_iff_partial
  Verif.Equation.check_iff
  Verif.Equation.two_colons_balance_violation

/-! C170 -/

#axioms_of
  Verif.Equation.equation_read_partial
  Verif.Equation.charge_read
  Verif.Equation.name_keeps_charge
  Verif.Equation.octal_charge_violation
  Verif.Equation.large_charge_violation
  Verif.Equation.fraction_charge_violation
  Verif.Equation.lone_equal_sign_violation

/-! C171 -/

#axioms_of
  Verif.Reaction.species_rewritten_partial
  Verif.Reaction.masters_stay
  Verif.Reaction.species_accepted
  Verif.Reaction.secondary_rewritten_partial
  Verif.Reaction.secondary_accepted
  Verif.Reaction.primary_identity
  Verif.Reaction.species_exact
  Verif.Reaction.master_identity
  Verif.Reaction.small_term_violation
  Verif.Reaction.lone_species_violation
  Verif.Reaction.cancelled_species_violation
  Verif.Reaction.twenty_species_violation

/-! C172 -/

#axioms_of
  Verif.Reaction.phase_rewritten_partial
  Verif.Reaction.two_formula_units_violation

/-! C173 -/

#axioms_of
  Verif.Reaction.solution_rewritten_partial
  Verif.Reaction.solution_exact
  Verif.Reaction.unknown_couple_violation

/-! C174 -/

#axioms_of
  Verif.Reaction.couple_partial
  Verif.Reaction.swap_obeys
  Verif.Reaction.swap_works

/-! C175 -/

#axioms_of
  Verif.Kinetics.time_covered
  Verif.Kinetics.rates_within
  Verif.Kinetics.early_end_alone
  Verif.Kinetics.no_end

/-! C176 -/

#axioms_of
  Verif.Kinetics.amounts_right
  Verif.Kinetics.mass_kept_partial
  Verif.Kinetics.order_two_solids
  Verif.Kinetics.stale_result

/-! C177 -/

#axioms_of
  Verif.Kinetics.constant_rates
  Verif.Kinetics.polynomial_rates
  Verif.Kinetics.order_one_time
  Verif.Kinetics.order_one_late

/-! C178 -/

#axioms_of
  Verif.Kinetics.steps_of_method_partial
  Verif.Kinetics.steps_of_order_one_partial
  Verif.Kinetics.order_one_trial

/-! C179 -/

#axioms_of
  Verif.Assemble.start_is_sum

/-! C180 -/

#axioms_of
  Verif.Assemble.fails_iff

/-! C181 -/

#axioms_of
  Verif.Assemble.minerals_give
  Verif.Assemble.minerals_delta_partial
  Verif.Assemble.components_give
  Verif.Assemble.used_up_forgotten

/-! C182 -/

#axioms_of
  Verif.Assemble.averages_partial
  Verif.Assemble.negative_fraction

/-! C183 -/

#axioms_of
  Verif.Assemble.marks_exact
  Verif.Assemble.ss_marks_partial
  Verif.Assemble.later_component_forgotten

/-! C184 -/

#axioms_of
  Verif.Assemble.limit_is_most_partial
  Verif.Assemble.system_totals
  Verif.Assemble.absent_element_ignored
  Verif.Assemble.other_formula_ignored

/-! C185 -/

#axioms_of
  Verif.Reuse.prep_partial
  Verif.Reuse.history_partial
  Verif.Reuse.other_components_kept
  Verif.Reuse.more_components_fault
  Verif.Reuse.empty_gas_fault
  Verif.Reuse.other_gas_fault

/-! C186 -/

#axioms_of
  Verif.Reuse.site_once

/-! C187 -/

#axioms_of
  Verif.Reuse.kept_iff

/-! C188 -/

#axioms_of
  Verif.Lockstep.readings_partial
  Verif.Lockstep.readings_gathered
  Verif.Lockstep.owned
  Verif.Lockstep.viscosity_is_volume

/-! C189 -/

#axioms_of
  Verif.CArrays.c_as_cpp
  Verif.CArrays.getters_succeed

/-! C190 -/

#axioms_of
  Verif.CArrays.porosity_last
  Verif.CArrays.porosity_first

/-! C191 -/

#axioms_of
  Verif.CArrays.getters_write_partial
  Verif.CArrays.stale_array

/-! C192 -/

#axioms_of
  Verif.CArrays.null_refused_partial
  Verif.CArrays.null_fault

/-! C193 -/

#axioms_of
  Verif.Getters.logs_partial
  Verif.Getters.absent_is_one

/-! C194 -/

#axioms_of
  Verif.Print.printed_partial
  Verif.Print.printed_any_workers_partial
  Verif.Print.mask_of_first_only

/-! C195 -/

#axioms_of
  Verif.Print.stopped_partial
  Verif.Print.stray_line

/-! C196 -/

#axioms_of
  Verif.CTables.table_got_partial
  Verif.CTables.table_refused
  Verif.CTables.nothing_to_copy
  Verif.CTables.no_selected_output
  Verif.CTables.large_table

/-! C197 -/

#axioms_of
  Verif.CTables.table_set_partial
  Verif.CTables.set_nothing
  Verif.CTables.back_partial
  Verif.CTables.size_null

/-! C198 -/

#axioms_of
  Verif.Files.files_hold
  Verif.Files.Demo.warning_in_output

/-! C199 -/

#axioms_of
  Verif.Files.closed_silent

/-! C200 -/

#axioms_of
  Verif.Files.open_refused_partial
  Verif.Files.half_open
  Verif.Files.empty_prefix_kept

/-! C201 -/

#axioms_of
  Verif.Files.screen_shows
  Verif.Files.Demo.error_needs_screen

/-! C202 -/

#axioms_of
  Verif.Agree.check_partial
  Verif.Agree.check_compares
  Verif.Agree.check_repaired
  Verif.Agree.Demo.mismatch_accepted
  Verif.Agree.Demo.no_columns_refused
  Verif.Agree.missing_undefined
  Verif.Agree.Demo.missing_case

/-! C203 -/

#axioms_of
  Verif.CBoundary.concentrations_partial
  Verif.CBoundary.concentrations_refused
  Verif.CBoundary.concentrations_unready
  Verif.CBoundary.no_entries
  Verif.CBoundary.negative_entries

/-! C204 -/

#axioms_of
  Verif.CInit.initial_partial
  Verif.CInit.initial_refused
  Verif.CInit.initial_large
  Verif.CInit.Demo.nulls

/-! C205 -/

#axioms_of
  Verif.CInit.cell_partial
  Verif.CInit.initial_refused
  Verif.CInit.cell_none

/-! C206 -/

#axioms_of
  Verif.CInit.species_partial
  Verif.CInit.species_refused
  Verif.CInit.species_none

/-! C207 -/

#axioms_of
  Verif.CInit.one_partial
  Verif.CInit.one_null
  Verif.CInit.Demo.one_applies

/-! C208 -/

#axioms_of
  Verif.CInit.fortran_same

/-! C209 -/

#axioms_of
  Verif.Catalog.species_lists
  Verif.Catalog.species_named
  Verif.Catalog.Demo.lists_case
  Verif.Catalog.Demo.named_applies

/-! C210 -/

#axioms_of
  Verif.Catalog.si_partial
  Verif.Catalog.si_history
  Verif.Catalog.si_repeated
  Verif.Catalog.Demo.twice

/-! C211 -/

#axioms_of
  Verif.Python.python_stoichiometry
  Verif.Python.stale_lists
  Verif.Python.Demo.stoichiometry_case

/-! C212 -/

#axioms_of
  Verif.Python.python_backward

/-! C213 -/

#axioms_of
  Verif.Python.set_partial
  Verif.Python.array_of_one_lost
  Verif.Python.Demo.one_and_two
  Verif.Python.Demo.reached

/-! C214 -/

#axioms_of
  Verif.Python.prefix_partial
  Verif.Python.prefix_stuck
  Verif.Python.Demo.prefix_case

/-! C215 -/

#axioms_of
  Verif.Catalog.column_partial
  Verif.Catalog.column_fresh
  Verif.Catalog.column_short
  Verif.Catalog.Demo.column_case
