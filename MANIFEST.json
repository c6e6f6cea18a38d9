{
 "claims": [
  {
   "property": "C01",
   "status": "proved",
   "theorems": [
    "Verif.Ranges.setEndCells_partition",
    "Verif.Ranges.setEndCells_empty_range"
   ],
   "note": ""
  },
  {
   "property": "C02",
   "status": "proved",
   "theorems": [
    "Verif.Mapping.createMapping_consistent",
    "Verif.Mapping.construct_consistent",
    "Verif.Mapping.createMapping_history"
   ],
   "note": ""
  },
  {
   "property": "C03",
   "status": "proved",
   "theorems": [
    "Verif.Mapping.createMapping_accepts_iff",
    "Verif.Mapping.createMapping_total"
   ],
   "note": ""
  },
  {
   "property": "C04",
   "status": "partial",
   "theorems": [
    "Verif.Mapping.createMapping_rejected_unchanged_violated",
    "Verif.Mapping.createMapping_rejected_dangling",
    "Verif.Mapping.createMapping_rejected_unchanged_partial"
   ],
   "note": "The code violates the property; the violation is proved with a witness, and the part that holds is proved."
  },
  {
   "property": "C05",
   "status": "proved",
   "theorems": [
    "Verif.Rebalance.rebalanceLoad_partition",
    "Verif.Rebalance.rebalanceLoad_no_times_ub",
    "Verif.Rebalance.rebalanceLoad_fraction_violated"
   ],
   "note": "Holds for fractions up to 1; false for larger accepted fractions, with a witness."
  },
  {
   "property": "C06",
   "status": "partial",
   "theorems": [
    "Verif.Rebalance.rebalancePerCell_partition_partial",
    "Verif.Rebalance.rebalancePerCell_partition_violated"
   ],
   "note": "Holds for fractions in [1/2, 1]; false for 3/10, with a witness."
  },
  {
   "property": "C07",
   "status": "proved",
   "theorems": [
    "Verif.Transfer.redistribute_lossless"
   ],
   "note": "Kinds of reactant that make up a cell; REACTION, MIX and the like are covered by C64, switching partitioning off by C65."
  },
  {
   "property": "C08",
   "status": "proved",
   "theorems": [
    "Verif.Transfer.run_independent",
    "Verif.Transfer.run_error_independent"
   ],
   "note": "Under the stated assumption that running a cell touches only that cell."
  },
  {
   "property": "C09",
   "status": "proved",
   "theorems": [
    "Verif.PartitionUZ.history_conserves",
    "Verif.PartitionUZ.partitionUZ_conserves",
    "Verif.Mixing.partition_conserves_moles",
    "Verif.Mixing.history_conserves_moles"
   ],
   "note": "For every linear way of mixing entities, and for the mixing constructors of the code with one reaction formula per phase and one gas-phase type (both zones hold parts of the same reactant)."
  },
  {
   "property": "C10",
   "status": "proved",
   "theorems": [
    "Verif.PartitionUZ.fractions_spec"
   ],
   "note": ""
  },
  {
   "property": "C11",
   "status": "partial",
   "theorems": [
    "Verif.PartitionUZ.drift_violated",
    "Verif.PartitionUZ.drift_unbounded",
    "Verif.PartitionUZ.drift_partial"
   ],
   "note": "The code violates the property; witness and unbounded drift proved. A single large step does repartition."
  },
  {
   "property": "C12",
   "status": "proved",
   "theorems": [
    "Verif.Conc.setConcentrations_stores"
   ],
   "note": "Concentrations2Solutions in both water modes, three units; amounts below 1e-25 mol stored as zero."
  },
  {
   "property": "C13",
   "status": "proved",
   "theorems": [
    "Verif.Conc.set_get_elements",
    "Verif.Conc.set_get_tiny_lost"
   ],
   "note": "Amounts zero or at least 1e-25 mol; the bound is shown needed."
  },
  {
   "property": "C14",
   "status": "proved",
   "theorems": [
    "Verif.Conc.set_get_water_conserved"
   ],
   "note": ""
  },
  {
   "property": "C15",
   "status": "partial",
   "theorems": [
    "Verif.Conc.set_get_water_partial",
    "Verif.Conc.set_get_water_violated"
   ],
   "note": "Violated by the code with water as a component (mass of water = oxygen/55.5); holds without water as a component, and always for charge."
  },
  {
   "property": "C16",
   "status": "proved",
   "theorems": [
    "Verif.Conc.getConcentrations_grid",
    "Verif.Gas.getGasComp_grid"
   ],
   "note": "Concentrations and the gas getters. The gas getters mark unmapped cells with the double 1e30, which differs from INACTIVE_CELL_VALUE (a float)."
  },
  {
   "property": "C17",
   "status": "partial",
   "theorems": [
    "Verif.Getters.density_inactive_partial",
    "Verif.Getters.density_inactive_empty",
    "Verif.Getters.saturation_inactive_partial",
    "Verif.Getters.density_inactive_violated"
   ],
   "note": "Violated by the code when the caller passes a vector that already has entries; holds for an empty vector."
  },
  {
   "property": "C18",
   "status": "partial",
   "theorems": [
    "Verif.State.states_refine",
    "Verif.Gas.gas_survives_violated"
   ],
   "note": "Refinement of a map of snapshots for every history in which updates leave every entity stored under its own number. SetGasCompMoles and SetGasPhaseVolume do not (see C81): gas phases they make are lost by StateSave."
  },
  {
   "property": "C19",
   "status": "partial",
   "theorems": [
    "Verif.State.apply_restores_partial",
    "Verif.State.apply_restores_reads_violated",
    "Verif.State.apply_restores_runs_violated"
   ],
   "note": "Violated by the code for cached reads and for partitioned solids; a run after StateApply without partitioning gives the same result."
  },
  {
   "property": "C20",
   "status": "partial",
   "theorems": [
    "Verif.Protocol.ith_equals_set",
    "Verif.Protocol.ith_subset_fails",
    "Verif.Protocol.no_leak_partial",
    "Verif.Protocol.no_leak_violated"
   ],
   "note": "Equivalence and failure of incomplete sets proved; a RunCells that fails in its missing-solution check keeps the staged values, so the last clause is violated by the code there."
  },
  {
   "property": "C21",
   "status": "partial",
   "theorems": [
    "Verif.Protocol.getIth_slice_partial",
    "Verif.Protocol.getIth_slice_violated",
    "Verif.Protocol.conc_stable"
   ],
   "note": "Violated by the code after SetConcentrations (cache not refreshed); holds directly after a run and on a first read."
  },
  {
   "property": "C22",
   "status": "partial",
   "theorems": [
    "Verif.Protocol.missing_fails_partial",
    "Verif.Protocol.missing_fails_violated",
    "Verif.Protocol.later_runs_unchecked"
   ],
   "note": "Violated by the code from the second RunCells on (need_error_check cleared before the check)."
  },
  {
   "property": "C23",
   "status": "proved",
   "theorems": [
    "Verif.SelOut.table_refines",
    "Verif.SelOut.table_rectangular"
   ],
   "note": "Refinement of an abstract table; a row finished before any heading exists is not kept (see C24)."
  },
  {
   "property": "C24",
   "status": "partial",
   "theorems": [
    "Verif.SelOut.blank_rows_partial",
    "Verif.SelOut.blank_rows_violated"
   ],
   "note": "Violated by the code while the table has no column; holds when the dummy run gives a column."
  },
  {
   "property": "C25",
   "status": "proved",
   "theorems": [
    "Verif.SelOut.row_serialisation"
   ],
   "note": "For values holding C strings; receiving table may have unfinished empty values."
  },
  {
   "property": "C26",
   "status": "partial",
   "theorems": [
    "Verif.SelOut.owners_partial",
    "Verif.SelOut.owners_violated"
   ],
   "note": "Violated by the code when cells of one worker add columns; holds when no cell adds a column. Inactive grid cells keep stale values."
  },
  {
   "property": "C27",
   "status": "proved",
   "theorems": [
    "Verif.Components.components_spec",
    "Verif.Components.components_kept",
    "Verif.Components.components_nodup",
    "Verif.Components.components_count",
    "Verif.Components.repeat_partial"
   ],
   "note": "For histories of calls with an unchanged H2O setting, failing calls included. That a repeated call changes no component is part of repeat_partial."
  },
  {
   "property": "C28",
   "status": "partial",
   "theorems": [
    "Verif.Components.toggle_violated",
    "Verif.Components.toggle_partial"
   ],
   "note": "Violated: turning H2O off duplicates Charge, turning it on drops a component. Proved for turning it on while all elements are still defined."
  },
  {
   "property": "C29",
   "status": "partial",
   "theorems": [
    "Verif.Components.ss_names_violated",
    "Verif.Components.ss_shared_violated",
    "Verif.Components.ss_names_partial",
    "Verif.Components.ss_first_call_partial"
   ],
   "note": "Violated when a component known from an earlier call is listed before a new one, and when solid solutions share components. Proved for new components listed before known ones and for the first call with solid solutions that share nothing."
  },
  {
   "property": "C30",
   "status": "proved",
   "theorems": [
    "Verif.InitCond.one_kind_same",
    "Verif.InitCond.one_kind"
   ],
   "note": "A vector shorter than the grid is read past its end (Verif.InitCond.one_kind_short): the size is never checked."
  },
  {
   "property": "C31",
   "status": "proved",
   "theorems": [
    "Verif.InitCond.initial_amounts"
   ],
   "note": "Volume clause of the theorem; premises Ready (volume and water of the definitions positive, fractions in [0,1])."
  },
  {
   "property": "C32",
   "status": "partial",
   "theorems": [
    "Verif.InitCond.initial_fails_partial",
    "Verif.InitCond.initial_fails_violated",
    "Verif.InitCond.initial_atomic_violated"
   ],
   "note": "The code violates both halves: the second KINETICS number is looked up among solid solutions (line 673), and a failing call keeps the cells already written. Proved: fails exactly when a referenced number is undefined or a porosity/volume is negative, provided second kinetics numbers are defined as solid solutions exactly when defined as kinetics; the undefined numbers are named; other workers and cells in error are untouched."
  },
  {
   "property": "C33",
   "status": "partial",
   "theorems": [
    "Verif.Gas.set_get_partial",
    "Verif.Gas.set_get_violated"
   ],
   "note": "Proved for gas phases that list no component twice (ignoring case) and, for the existence clause, up to components missing from the component list. Violated for a gas phase with one component under two spellings."
  },
  {
   "property": "C34",
   "status": "proved",
   "theorems": [
    "Verif.Setters.handler_modes"
   ],
   "note": "Every history of the modelled setters; mode 3 accepted in OpenMP builds. A refused mode call returns its code in every mode and puts mode 0 in force."
  },
  {
   "property": "C35",
   "status": "proved",
   "theorems": [
    "Verif.Setters.grid_setters"
   ],
   "note": "Includes the distribution of pressures and temperatures to the cells of the workers."
  },
  {
   "property": "C36",
   "status": "proved",
   "theorems": [
    "Verif.Setters.units_defined"
   ],
   "note": "Every history."
  },
  {
   "property": "C37",
   "status": "proved",
   "theorems": [
    "Verif.Registry.ids_never_reused",
    "Verif.Registry.destroyBMI_spec",
    "Verif.Registry.id_wraps"
   ],
   "note": "For histories with fewer than 2^31 constructions; id_wraps shows what happens at the limit of int."
  },
  {
   "property": "C38",
   "status": "partial",
   "theorems": [
    "Verif.Registry.cleanup_returns_violated",
    "Verif.Registry.cleanupBMI_hangs",
    "Verif.Registry.cleanupBMI_partial",
    "Verif.Registry.destroyAll_empties"
   ],
   "note": "Violated: with any living BMI instance CleanupBMIModuleInstances blocks on its own mutex. It returns only when there is none. DestroyAll (CleanupReactionModuleInstances) does return and empties the registry."
  },
  {
   "property": "C39",
   "status": "proved",
   "theorems": [
    "Verif.BMI.counts_are_lengths"
   ],
   "note": "in every state reachable by any calls (also throwing ones); also the same list with or without the count first"
  },
  {
   "property": "C40",
   "status": "partial",
   "theorems": [
    "Verif.BMI.name_lookup",
    "Verif.BMI.lists_of_names",
    "Verif.BMI.set_listed",
    "Verif.BMI.set_unlisted",
    "Verif.BMI.get_listed",
    "Verif.BMI.get_unlisted",
    "Verif.BMI.ptr_unlisted",
    "Verif.BMI.set_listed_violated",
    "Verif.BMI.components_pointer_is_null",
    "Verif.BMI.headings_unlisted"
   ],
   "note": "proved for the typed overloads in every reachable state; violated by SetValue(void*) with an empty FilePrefix (division by zero), GetValuePtr(Components) (null, no exception) and SelectedOutputHeadings (readable but not listed before a selected output exists)"
  },
  {
   "property": "C41",
   "status": "proved",
   "theorems": [
    "Verif.BMI.clock_ticks",
    "Verif.BMI.time_never_goes_back",
    "Verif.BMI.update_ends_at_end_time",
    "Verif.BMI.until_ends_exactly"
   ],
   "note": "for every history of calls with values of the right type; exact rational arithmetic"
  },
  {
   "property": "C42",
   "status": "partial",
   "theorems": [
    "Verif.BMI.raw_read_partial",
    "Verif.BMI.raw_write_partial",
    "Verif.BMI.get_listed",
    "Verif.BMI.set_listed",
    "Verif.BMI.one_cell_read_violated",
    "Verif.BMI.one_cell_write_violated"
   ],
   "note": "vector overloads exact for every grid size; the void* overloads exact for more than one value and wrong for one"
  },
  {
   "property": "C43",
   "status": "partial",
   "theorems": [
    "Verif.BMI.pointers_follow_updates_partial",
    "Verif.BMI.pointers_follow_until_partial",
    "Verif.BMI.pointer_dangles"
   ],
   "note": "holds for every history in which FindComponents does not find more components after a pointer was given out; dangling pointer otherwise"
  },
  {
   "property": "C44",
   "status": "partial",
   "theorems": [
    "Verif.AutoOutput.auto_columns_partial",
    "Verif.AutoOutput.names_distinct",
    "Verif.AutoOutput.auto_not_fixed",
    "Verif.AutoOutput.case_twin_hidden",
    "Verif.AutoOutput.auto_columns_violated",
    "Verif.AutoOutput.regeneration_leaves_stale_names",
    "Verif.AutoOutput.same_heading_shifts_columns"
   ],
   "note": "violated for names equal up to case (the earlier variable is hidden) and after a second generation with other options (stale names keep old columns); proved for all lists with names distinct up to case, with sufficient conditions on the input lists"
  },
  {
   "property": "C45",
   "status": "partial",
   "theorems": [
    "Verif.Yaml.replay_partial",
    "Verif.Yaml.replay_unknown",
    "Verif.Yaml.replay_violated",
    "Verif.Yaml.replay_violated_nth",
    "Verif.Yaml.names_nodup"
   ],
   "note": "Violated by recordings with YAMLLogMessage or YAMLSetNthSelectedOutput: InitializeYAML does not know these keywords and throws. Proved for all other recordings, including Clear and calls that end with exceptions. The text form of the file is trusted."
  },
  {
   "property": "C46",
   "status": "proved",
   "theorems": [
    "Verif.Serial.nameLists_roundTrip",
    "Verif.Serial.emptyName_shifts_values",
    "Verif.Serial.lossless_ND"
   ],
   "note": "Any number of lists over one dictionary; the empty name is excluded and shown to break the round trip."
  },
  {
   "property": "C47",
   "status": "proved",
   "theorems": [
    "Verif.NameDouble.simplifyRedox_spec",
    "Verif.NameDouble.simplifyRedox_total",
    "Verif.NameDouble.getTotalElement_spec",
    "Verif.NameDouble.simplifyRedox_names_needed"
   ],
   "note": "Names made of characters sorting after the parenthesis; shown necessary."
  },
  {
   "property": "C48",
   "status": "partial",
   "theorems": [
    "Verif.NameDouble.mergeRedox_partial",
    "Verif.NameDouble.mergeRedox_violated",
    "Verif.NameDouble.mergeRedox_frame"
   ],
   "note": "Violated by the code for names with a valence (substr(0, pos-1)); holds when merged names are plain element names."
  },
  {
   "property": "C49",
   "status": "partial",
   "theorems": [
    "Verif.Mixing.exchange_mix",
    "Verif.Mixing.pp_mix_partial",
    "Verif.Mixing.pp_mix_violated",
    "Verif.Mixing.kinetics_mix",
    "Verif.Mixing.ss_mix",
    "Verif.Mixing.surface_mix"
   ],
   "note": "Proved for exchangers, kinetics, solid solutions and surfaces. Violated for equilibrium phases that have different reaction formulas (the later part is dropped); proved when a phase has one formula."
  },
  {
   "property": "C50",
   "status": "proved",
   "theorems": [
    "Verif.Mixing.mix_extensive",
    "Verif.Mixing.mix_intensive",
    "Verif.Mixing.mix_between",
    "Verif.Mixing.mix_order"
   ],
   "note": "Over rational numbers. Activity guesses are not modelled."
  },
  {
   "property": "C51",
   "status": "partial",
   "theorems": [
    "Verif.NameDouble.addIntensive_partial",
    "Verif.NameDouble.addIntensive_violated",
    "Verif.NameDouble.addExtensive_spec",
    "Verif.NameDouble.multiply_spec"
   ],
   "note": "Violated by the code for names only in the first list."
  },
  {
   "property": "C52",
   "status": "partial",
   "theorems": [
    "Verif.Mixing.area_violated",
    "Verif.Mixing.area_pair_partial",
    "Verif.Mixing.area_mix_partial"
   ],
   "note": "Violated for different specific areas (the area grows). Proved: never less than the sum, equal exactly for equal specific areas; any number of parts with equal specific areas."
  },
  {
   "property": "C53",
   "status": "partial",
   "theorems": [
    "Verif.Mixing.gas_mix_violated",
    "Verif.Mixing.gas_mix_partial"
   ],
   "note": "Violated for gas phases of different types (all gas is lost). Proved for one type."
  },
  {
   "property": "C54",
   "status": "proved",
   "theorems": [
    "Verif.Store.copy_spec",
    "Verif.Store.remove_spec",
    "Verif.Store.add_spec"
   ],
   "note": ""
  },
  {
   "property": "C55",
   "status": "partial",
   "theorems": [
    "Verif.Dump.dump_complete_partial",
    "Verif.Dump.dump_module_read_partial",
    "Verif.Dump.dump_gas_lost"
   ],
   "note": "Violated for gas phases made by SetGasCompMoles/SetGasPhaseVolume (they carry number 1). Proved for all modules whose entities carry the number of their cell, all partitions, with and without partitioned solids, up to 21474836 cells."
  },
  {
   "property": "C56",
   "status": "partial",
   "theorems": [
    "Verif.Dump.dump_read_partial",
    "Verif.Dump.dump_pressure_lost",
    "Verif.Dump.dump_no_pressure"
   ],
   "note": "Violated for pressures, which are neither dumped nor read; proved for the other ten kinds and numbers not negative."
  },
  {
   "property": "C57",
   "status": "partial",
   "theorems": [
    "Verif.CellList.list_selects_partial",
    "Verif.CellList.range_to_max_ub"
   ],
   "note": "Proved for all lists of ints and ranges (either order, negative numbers) from their decimal text; ranges ending at the largest int overflow the loop counter, numbers outside int are C98."
  },
  {
   "property": "C58",
   "status": "partial",
   "theorems": [
    "Verif.FString.padC_partial",
    "Verif.FString.padC_result",
    "Verif.FString.report_violated",
    "Verif.FString.exact_fit_reported",
    "Verif.FString.padF_partial",
    "Verif.FString.fortran_truncates_silently",
    "Verif.FString.negative_length"
   ],
   "note": "Violated: in the C interface a text that exactly fills the buffer is reported as truncated; in the Fortran interface truncation is never reported. Everything else proved for all texts and lengths."
  },
  {
   "property": "C59",
   "status": "partial",
   "theorems": [
    "Verif.Pack.cells_arrive_partial",
    "Verif.Pack.packing_not_lossless",
    "Verif.Pack.viscos_0_lost",
    "Verif.Pack.ddl_viscosity_lost",
    "Verif.Pack.temperature_lost",
    "Verif.Pack.misnumbered_gas_lost",
    "Verif.Pack.gas_phase_lost",
    "Verif.Pack.empty_cells_undefined",
    "Verif.Pack.unpack_turns"
   ],
   "note": "Violated: viscos_0, the DDL viscosity switch and z_gMCD_map are not packed, temperature and pressure definitions are not sent, a gas phase numbered otherwise than its cell arrives elsewhere, and packing empty cells is undefined. Proved that everything else arrives, for all cells."
  },
  {
   "property": "C60",
   "status": "partial",
   "theorems": [
    "Verif.Scatter.gather_scatter_partial",
    "Verif.Scatter.gather_scatter_symmetric",
    "Verif.Scatter.gather_scatter_violated"
   ],
   "note": "Violated: the further grid cells of a reaction cell get the value of its first one. Proved exactly what is returned, and the full statement for arrays equal on the grid cells of each reaction cell."
  },
  {
   "property": "C61",
   "status": "partial",
   "theorems": [
    "Verif.Steps.equal_increments_partial",
    "Verif.Steps.explicit_steps",
    "Verif.Steps.read_equal",
    "Verif.Steps.missing_count_violated"
   ],
   "note": "Violated: `-steps T in` without a number (or with 0) is accepted as zero increments, whose total is 0. Proved for every positive number of increments."
  },
  {
   "property": "C62",
   "status": "partial",
   "theorems": [
    "Verif.Routing.runString_partial",
    "Verif.Routing.nul_violated",
    "Verif.Routing.print_race_violated"
   ],
   "note": "Violated: input after a NUL is silently not run, and instances that print from different OpenMP threads race for the output file. Proved for every other call, whatever PHREEQC does with the input."
  },
  {
   "property": "C63",
   "status": "partial",
   "theorems": [
    "Verif.Boundary.boundary_partial",
    "Verif.Boundary.boundarySimple_partial",
    "Verif.Boundary.boundary_empty",
    "Verif.Boundary.boundary_unready",
    "Verif.Boundary.missing_violated",
    "Verif.Boundary.missing_second_violated",
    "Verif.Boundary.ignored_fraction_violated",
    "Verif.Boundary.mix_number_violated",
    "Verif.Boundary.mass_fraction_violated"
   ],
   "note": "Proved for all lists of entries whose solutions exist with positive water, volume and density, fractions in [0,1] (positive without second solution). Violated: missing solutions are not reported, a fraction of 0 without second solution gives NaN, a MIX number above the last solution is taken for a negative number, mass fractions use a density weighted by water."
  },
  {
   "property": "C64",
   "status": "partial",
   "theorems": [
    "Verif.Transfer.redistribute_reaction_violated"
   ],
   "note": "The code violates the property; witness proved."
  },
  {
   "property": "C65",
   "status": "partial",
   "theorems": [
    "Verif.Transfer.redistribute_uz_violated",
    "Verif.Transfer.redistribute_uz_partial"
   ],
   "note": "The code violates the property when partitioning is off during rebalancing; holds while it is on."
  },
  {
   "property": "C66",
   "status": "proved",
   "theorems": [
    "Verif.PartitionUZ.partitionUZ_proportional"
   ],
   "note": ""
  },
  {
   "property": "C67",
   "status": "partial",
   "theorems": [
    "Verif.Getters.density_reports_missing_violated",
    "Verif.Getters.density_always_ok",
    "Verif.Getters.saturation_missing_empty"
   ],
   "note": "Violated by the code: the failure code is dropped. A missing solution shows only as an empty vector, and only for the saturation."
  },
  {
   "property": "C68",
   "status": "partial",
   "theorems": [
    "Verif.Getters.fill_inactive_partial",
    "Verif.Getters.viscosity_inactive_violated"
   ],
   "note": "Violated by the code where the module's vector was filled before; mapped cells are right."
  },
  {
   "property": "C69",
   "status": "partial",
   "theorems": [
    "Verif.Getters.species_right_partial",
    "Verif.Getters.getSpecies_partial",
    "Verif.Getters.species_right_violated"
   ],
   "note": "Violated by the code for a species missing from the table (operator[] inserts 0); holds otherwise."
  },
  {
   "property": "C70",
   "status": "proved",
   "theorems": [
    "Verif.Conc.getConcentrations_repeat",
    "Verif.Conc.simplifyRedox_idem"
   ],
   "note": "Names with characters sorting after the parenthesis, as in C47."
  },
  {
   "property": "C71",
   "status": "proved",
   "theorems": [
    "Verif.Components.ss_groups"
   ],
   "note": ""
  },
  {
   "property": "C72",
   "status": "partial",
   "theorems": [
    "Verif.Components.repeat_violated",
    "Verif.Components.repeat_partial"
   ],
   "note": "Violated for the saturation-index names, which are appended again. Proved for all other lists."
  },
  {
   "property": "C73",
   "status": "proved",
   "theorems": [
    "Verif.Components.surfaces_aligned",
    "Verif.Components.exchangers_aligned"
   ],
   "note": "The names-by-type part speaks of calls that succeed; equal lengths hold after failing calls too (findComponents_spec)."
  },
  {
   "property": "C74",
   "status": "proved",
   "theorems": [
    "Verif.Components.name_lists"
   ],
   "note": ""
  },
  {
   "property": "C75",
   "status": "partial",
   "theorems": [
    "Verif.Mixing.species_mix_violated",
    "Verif.Mixing.species_mix_partial"
   ],
   "note": "Violated for species that some part lacks. Proved for species in all parts."
  },
  {
   "property": "C76",
   "status": "partial",
   "theorems": [
    "Verif.Mixing.isotope_ratio_violated",
    "Verif.Mixing.isotope_ratio_partial",
    "Verif.Mixing.mix_extensive"
   ],
   "note": "Ratios are violated for more than one part. Proved: moles of isotopes add up; a single part keeps its ratios."
  },
  {
   "property": "C77",
   "status": "proved",
   "theorems": [
    "Verif.InitCond.initial_amounts"
   ],
   "note": "Premises: definitions have volume and water, a phase has one reaction formula and gas phases one type (see C49, C53), fractions in [0,1], saturations not negative."
  },
  {
   "property": "C78",
   "status": "partial",
   "theorems": [
    "Verif.InitCond.initial_stale_violated",
    "Verif.InitCond.initial_amounts"
   ],
   "note": "Violated: cells written to worker 0 by a failed call are distributed by the next successful one. What holds: when every worker holds only its own cells before the call, kinds with a negative number are as before."
  },
  {
   "property": "C79",
   "status": "proved",
   "theorems": [
    "Verif.Gas.set_get_volume"
   ],
   "note": "All cells and workers."
  },
  {
   "property": "C80",
   "status": "partial",
   "theorems": [
    "Verif.Gas.get_set_partial",
    "Verif.Gas.get_set_violated"
   ],
   "note": "Violated: a gas phase without components (made by SetGasPhaseVolume) is erased. Proved for gas phases with components."
  },
  {
   "property": "C81",
   "status": "partial",
   "theorems": [
    "Verif.Gas.gas_survives_violated",
    "Verif.Gas.gas_numbers_partial",
    "Verif.Gas.new_phase_number"
   ],
   "note": "Violated: new gas phases carry number 1 and overwrite each other in StateSave. Proved: numbers are right when no cell without a gas phase is given moles; then C18 applies."
  },
  {
   "property": "C82",
   "status": "proved",
   "theorems": [
    "Verif.Setters.pressure_round_trip",
    "Verif.Setters.temperature_round_trip"
   ],
   "note": "Every reaction cell has its solution."
  },
  {
   "property": "C83",
   "status": "proved",
   "theorems": [
    "Verif.Setters.error_string"
   ],
   "note": "Every history of the modelled setters. SetDatabaseFileName (private) does not clear the string and is not modelled."
  },
  {
   "property": "C84",
   "status": "partial",
   "theorems": [
    "Verif.Setters.refused_unchanged_partial",
    "Verif.Setters.refused_unchanged_violated",
    "Verif.Setters.refused_names_change"
   ],
   "note": "Violated: refused SetErrorHandlerMode resets the mode to 0; SetFilePrefix(\"\") stores the empty prefix; SetDumpFileName(\"\") replaces the name. Proved for all other modelled setters."
  },
  {
   "property": "C85",
   "status": "partial",
   "theorems": [
    "Verif.Registry.destroy_defined_violated",
    "Verif.Registry.destroy_defined_partial"
   ],
   "note": "Violated for modules not made with new; exact condition proved."
  },
  {
   "property": "C86",
   "status": "partial",
   "theorems": [
    "Verif.Registry.thread_safe_violated",
    "Verif.Registry.two_destroys_race",
    "Verif.Registry.double_delete",
    "Verif.Registry.creators_partial",
    "Verif.Registry.one_destroyer_partial"
   ],
   "note": "Violated because Destroy searches without the lock; safe for creators and lookups only, and for one thread that creates and destroys while the others look up."
  },
  {
   "property": "C87",
   "status": "partial",
   "theorems": [
    "Verif.BMI.calls_are_safe_partial",
    "Verif.BMI.ready_after",
    "Verif.BMI.early_set_overflows",
    "Verif.BMI.early_direct_set_overflows"
   ],
   "note": "safe once every variable has been set up (FindComponents or a query of names); SetValue(Porosity) before that writes past a buffer"
  },
  {
   "property": "C88",
   "status": "partial",
   "theorems": [
    "Verif.BMI.prefix_read_whole_partial",
    "Verif.BMI.error_string_cut",
    "Verif.BMI.error_string_overread"
   ],
   "note": "FilePrefix whole; ErrorString is cut to, or read up to, the length it had when first used"
  },
  {
   "property": "C89",
   "status": "partial",
   "theorems": [
    "Verif.BMI.thrown_run_stays_partial",
    "Verif.BMI.failed_run_advances"
   ],
   "note": "Update ignores the code of RunCells; holds when the error handler throws"
  },
  {
   "property": "C90",
   "status": "partial",
   "theorems": [
    "Verif.BMI.wrong_size_changes_nothing_partial",
    "Verif.BMI.wrong_size_returns"
   ],
   "note": "nothing is changed, but the call returns as if it had worked"
  },
  {
   "property": "C91",
   "status": "partial",
   "theorems": [
    "Verif.BMI.direct_setters_show_partial",
    "Verif.BMI.direct_setter_unseen"
   ],
   "note": "holds while no BMI call has thrown; afterwards CurrentVar can suppress the update"
  },
  {
   "property": "C92",
   "status": "partial",
   "theorems": [
    "Verif.AutoOutput.auto_read_safe_partial",
    "Verif.AutoOutput.read_before_run_overruns",
    "Verif.AutoOutput.read_with_output_off_overruns",
    "Verif.AutoOutput.regeneration_leaves_stale_names"
   ],
   "note": "violated before the first RunCells, after RunCells with selected output off and after a second generation; proved after a run with selected output on when every listed name is generated again"
  },
  {
   "property": "C93",
   "status": "partial",
   "theorems": [
    "Verif.Yaml.counts_partial",
    "Verif.Yaml.counts_violated"
   ],
   "note": "Proved for one record of each; with two records of the count GetGridCellCountYAML and Initialize disagree."
  },
  {
   "property": "C94",
   "status": "partial",
   "theorems": [
    "Verif.Yaml.names_ignored_partial",
    "Verif.Yaml.order_matters",
    "Verif.Yaml.missing_item_ub"
   ],
   "note": "Violated: items are read by position and their names are ignored."
  },
  {
   "property": "C95",
   "status": "partial",
   "theorems": [
    "Verif.Yaml.returns_ok_partial",
    "Verif.Yaml.failure_unreported"
   ],
   "note": "Violated: return codes are ignored; whenever no exception is thrown the result is IRM_OK."
  },
  {
   "property": "C96",
   "status": "partial",
   "theorems": [
    "Verif.Dump.dump_defined_iff"
   ],
   "note": "Violated: the progress message overflows int for more than 21474836 cells; proved that this is the exact limit."
  },
  {
   "property": "C97",
   "status": "partial",
   "theorems": [
    "Verif.Dump.digits_partial",
    "Verif.Dump.digits_exact",
    "Verif.Dump.digits_violated"
   ],
   "note": "Violated: 14 significant digits do not determine a double. Relative error at most 5e-14; numbers with up to 14 digits are exact."
  },
  {
   "property": "C98",
   "status": "partial",
   "theorems": [
    "Verif.CellList.out_of_range_selects_all",
    "Verif.CellList.not_a_number_selects_all",
    "Verif.CellList.exponent_cut"
   ],
   "note": "Violated: a word that cannot be read is dropped silently, and if it is the only one the list selects everything."
  },
  {
   "property": "C99",
   "status": "partial",
   "theorems": [
    "Verif.CellList.delete_partial",
    "Verif.CellList.delete_all",
    "Verif.CellList.delete_all_narrowed",
    "Verif.CellList.delete_kind_narrowed"
   ],
   "note": "Violated: a line with numbers after -all (or after a line without numbers) narrows the selection. Proved for all definitions whose lines all have numbers."
  },
  {
   "property": "C100",
   "status": "partial",
   "theorems": [
    "Verif.FString.index_partial",
    "Verif.FString.index_count_undefined",
    "Verif.FString.bmiName_undefined"
   ],
   "note": "Violated: 11 of 13 functions accept the number of names as index and read behind the vector; the three BMI name functions check nothing. All other indices proved."
  },
  {
   "property": "C101",
   "status": "partial",
   "theorems": [
    "Verif.FString.terminated_partial"
   ],
   "note": "Violated: strncpy leaves no NUL when the name has at least the buffer length; proved that this is the exact condition."
  },
  {
   "property": "C102",
   "status": "partial",
   "theorems": [
    "Verif.FString.names_partial",
    "Verif.FString.names_head_partial",
    "Verif.FString.empty_list_status",
    "Verif.FString.long_name_cut"
   ],
   "note": "Violated: for an empty list the returned status was never set; names longer than 2048 (1024) are cut silently. Proved for all other lists."
  },
  {
   "property": "C103",
   "status": "proved",
   "theorems": [
    "Verif.FString.prefix_returned",
    "Verif.FString.error_returned",
    "Verif.FString.input_arrives"
   ],
   "note": "For texts without NUL."
  },
  {
   "property": "C104",
   "status": "partial",
   "theorems": [
    "Verif.Pack.move_partial"
   ],
   "note": "Up to the members that are not packed (C59) and for cells whose reactants carry the number of the cell."
  },
  {
   "property": "C105",
   "status": "proved",
   "theorems": [
    "Verif.Scatter.scatter_gather"
   ],
   "note": ""
  },
  {
   "property": "C106",
   "status": "proved",
   "theorems": [
    "Verif.Steps.reaction_amounts",
    "Verif.Steps.reaction_read"
   ],
   "note": ""
  },
  {
   "property": "C107",
   "status": "partial",
   "theorems": [
    "Verif.Steps.runCells_time_partial",
    "Verif.Steps.na_time_step_violated"
   ],
   "note": "Violated for the time step -98.7654321, which stands for undefined. Proved for every other one."
  },
  {
   "property": "C108",
   "status": "partial",
   "theorems": [
    "Verif.Steps.total_time_partial",
    "Verif.Steps.total_time_violated"
   ],
   "note": "Violated: TOTAL_TIME is 0 in cells without kinetics. Proved for cells with kinetics."
  },
  {
   "property": "C109",
   "status": "proved",
   "theorems": [
    "Verif.Steps.ramp"
   ],
   "note": ""
  },
  {
   "property": "C110",
   "status": "proved",
   "theorems": [
    "Verif.Steps.convert_time"
   ],
   "note": ""
  },
  {
   "property": "C111",
   "status": "partial",
   "theorems": [
    "Verif.Routing.runFile_partial",
    "Verif.Routing.empty_file_violated"
   ],
   "note": "Violated: the refusal of an empty name is ignored and the call reports success when no instance is chosen. Same conditions on NUL and printing as C62."
  },
  {
   "property": "C112",
   "status": "partial",
   "theorems": [
    "Verif.Routing.loadDatabase_partial",
    "Verif.Routing.load_exception_violated",
    "Verif.Routing.load_empty"
   ],
   "note": "Without OpenMP. Violated: an exception from one load leaves the instances after it unloaded, and the choice of SetSpeciesSaveOn is lost in Utility. Proved for loads without exceptions."
  },
  {
   "property": "C113",
   "status": "partial",
   "theorems": [
    "Verif.CheckCells.checkCells_partial",
    "Verif.CheckCells.message_violated"
   ],
   "note": "Violated: the message prints the positions 0, 1, 2, ... in the list of missing cells, and their grid cells, instead of the missing cells. Proved: the run stops iff a cell lacks a solution, as many cells are listed as lack one, and the listing is in range."
  },
  {
   "property": "C114",
   "status": "partial",
   "theorems": [
    "Verif.Utility.toUtility_partial",
    "Verif.Utility.mass_fraction_violated",
    "Verif.Utility.not_positive_violated",
    "Verif.Utility.before_findComponents_violated",
    "Verif.Utility.more_than_cells_violated"
   ],
   "note": "Violated: with water as component the water of a mass fraction is multiplied by the density of a grid cell with the number of the set (read past the end for more sets than grid cells); amounts without positive hydrogen and oxygen give pure water; before FindComponents there is a division by zero. Proved for all sets otherwise."
  },
  {
   "property": "C115",
   "status": "partial",
   "theorems": [
    "Verif.Species.speciesToModule_partial",
    "Verif.Species.speciesToModule_off",
    "Verif.Species.short_vector_violated",
    "Verif.Species.dry_cell_emptied"
   ],
   "note": "Violated: a vector of the wrong size is read past its end. Proved for full vectors and plain element names. A total named H2O is stored, and dry cells are emptied."
  },
  {
   "property": "C116",
   "status": "partial",
   "theorems": [
    "Verif.Species.boundarySp_partial",
    "Verif.Species.boundarySpSimple_partial",
    "Verif.Species.boundarySp_refused",
    "Verif.Species.one_sided_violated",
    "Verif.Species.unknown_species_violated",
    "Verif.Species.missing_sp_violated"
   ],
   "note": "Violated: a species in only one of two mixed solutions is not diluted, a species unknown to the module overwrites the first one, missing solutions give zeros. Proved for existing solutions with known species; the mean is weighted by water."
  },
  {
   "property": "C117",
   "status": "partial",
   "theorems": [
    "Verif.Formula.elements_partial",
    "Verif.Formula.elements_electron",
    "Verif.Formula.accepted_partial",
    "Verif.Formula.parse_total",
    "Verif.Formula.two_colons_violated",
    "Verif.Formula.colon_in_group_violated",
    "Verif.Formula.lone_point_violated",
    "Verif.Formula.open_bracket_violated",
    "Verif.Formula.missing_bracket_reported"
   ],
   "note": "Violated: a coefficient behind a colon also multiplies the parts behind later colons; a colon inside parentheses takes the closing parenthesis (a later subscript is applied to the wrong group, or the formula is refused); a lone decimal point is the number 0; an opening bracket at the end is read past the end. Proved for all other formulas, and that everything accepted without colons in parentheses is a formula."
  },
  {
   "property": "C118",
   "status": "partial",
   "theorems": [
    "Verif.Formula.gfwAll_partial",
    "Verif.Formula.getGfw_partial",
    "Verif.Formula.memory_transparent",
    "Verif.Formula.faithful_nil",
    "Verif.Formula.no_weight_violated",
    "Verif.Formula.unreadable_violated",
    "Verif.Formula.long_formula_violated"
   ],
   "note": "Violated: an element without weight gives the weight 0 without an error; after a formula that cannot be read a variable that was never assigned is returned; a formula of 256 characters ends the program. Proved for readable formulas of weighed elements and any history."
  },
  {
   "property": "C119",
   "status": "partial",
   "theorems": [
    "Verif.CellCopy.cell_copied_partial",
    "Verif.CellCopy.cell_refused",
    "Verif.CellCopy.cell_removed_violated",
    "Verif.CellCopy.cell_mix_violated",
    "Verif.CellCopy.cell_range_violated",
    "Verif.CellCopy.cell_shared_violated"
   ],
   "note": "Violated: reactants of kinds that cell n lacks are not removed; MIX is not used, refused without a solution of that number and not counted for a negative n; grid numbers are not checked; a grid cell that is not the first of its reaction cell is passed over. Proved: the amounts of every copied reactant, the rest kept, refusal of unknown numbers."
  },
  {
   "property": "C120",
   "status": "partial",
   "theorems": [
    "Verif.SelNav.cycle_partial",
    "Verif.SelNav.count_violated",
    "Verif.SelNav.count_off_violated",
    "Verif.SelNav.database_violated"
   ],
   "note": "Violated: the count is that of the tables of the last RunCells (0 before it and after a run with selected output off, stale after LoadDatabase) while the sequence numbers run over the definitions. Proved after RunCells with selected output on, through every later sequence of selections."
  },
  {
   "property": "C121",
   "status": "partial",
   "theorems": [
    "Verif.SelNav.selection_partial",
    "Verif.SelNav.run_selects",
    "Verif.SelNav.selection_violated",
    "Verif.SelNav.undefined_selected_violated"
   ],
   "note": "Violated: RunCells with selected output on selects the definition with the largest number, LoadDatabase selects 1, and numbers without a definition are accepted. Proved for all other sequences of calls."
  },
  {
   "property": "C122",
   "status": "partial",
   "theorems": [
    "Verif.Raw.exchange_restart_partial",
    "Verif.Raw.exchange_redump",
    "Verif.Raw.exchange_lanthanum_violated",
    "Verif.Raw.exchange_component_violated",
    "Verif.Raw.exchange_totals_violated"
   ],
   "note": "Violated: lanthanum on an exchanger is read as the option -la and lost; a component whose formula occurs in the totals of an earlier component is dropped; non-empty workspace totals stop the reader; new_def, solution_equilibria and the range end are not kept. Proved for all assemblages without these."
  },
  {
   "property": "C123",
   "status": "partial",
   "theorems": [
    "Verif.Raw.solution_restart_partial",
    "Verif.Raw.solution_redump",
    "Verif.Raw.solution_fluoride_violated",
    "Verif.Raw.solution_isotopes_violated"
   ],
   "note": "Violated: a total whose name is the element of a valence state short of one character (F with Fe(2)) is lost without an error; isotopes are lost with eight or nine errors each. Proved exactly for all solutions: everything else is restored as printed."
  },
  {
   "property": "C124",
   "status": "partial",
   "theorems": [
    "Verif.Raw.gas_restart_partial",
    "Verif.Raw.gas_redump",
    "Verif.Raw.gas_pressure_violated"
   ],
   "note": "Violated: the line -p of a gas component is taken for the obsolete -phase_name, so every partial pressure is zero after a restart, without an error. Everything else is proved restored, for component names distinct ignoring case and totals without option words; the second dump is proved equal when the partial pressures were zero."
  },
  {
   "property": "C125",
   "status": "proved",
   "theorems": [
    "Verif.Raw.temperature_restart",
    "Verif.Raw.pressure_restart",
    "Verif.Raw.reaction_restart",
    "Verif.Raw.mix_restart"
   ],
   "note": "For any number of values and any following text."
  },
  {
   "property": "C126",
   "status": "proved",
   "theorems": [
    "Verif.Raw.kinetics_restart",
    "Verif.Raw.kinetics_redump"
   ],
   "note": "Only the workspace moles_of_reaction is not written."
  },
  {
   "property": "C127",
   "status": "partial",
   "theorems": [
    "Verif.Raw.pp_restart_partial",
    "Verif.Raw.pp_redump",
    "Verif.Raw.pp_silicon_violated"
   ],
   "note": "Violated: silicon in the stored totals of a phase is read as the option -si and replaces the target saturation index without an error; dissolve_only is lost when precipitate_only is set as well; new_def is written as 0. Proved for assemblages whose lists hold no option word."
  },
  {
   "property": "C128",
   "status": "partial",
   "theorems": [
    "Verif.Raw.ss_restart_partial",
    "Verif.Raw.ss_redump",
    "Verif.Raw.ss_phosphorus_violated"
   ],
   "note": "Violated: phosphorus in the stored totals of a solid solution is read as the option -p, which overwrites the parameters and reports errors. Proved for solid solutions whose totals hold no option word."
  },
  {
   "property": "C129",
   "status": "partial",
   "theorems": [
    "Verif.Raw.surface_restart_partial",
    "Verif.Raw.surface_redump",
    "Verif.Raw.surface_viscosity_violated",
    "Verif.Raw.surface_lanthanum_violated",
    "Verif.Raw.surface_totals_violated"
   ],
   "note": "Violated: the switch for a calculated viscosity of the diffuse layer is not written; lanthanum on a surface is read as the option -la, is lost and its amount replaces the log activity; non-empty workspace totals stop the reader. Proved for all surfaces without these, whose names differ ignoring case."
  },
  {
   "property": "C130",
   "status": "partial",
   "theorems": [
    "Verif.Raw.dump_file_restart_partial",
    "Verif.Raw.dump_file_redump"
   ],
   "note": "Proved for all selections and contents whose selected entities meet the conditions of C122-C129 (no isotopes, no names that are options, no non-empty workspace totals). The second dump needs in addition the conditions of the redump theorems. The text after END is arbitrary."
  },
  {
   "property": "C131",
   "status": "partial",
   "theorems": [
    "Verif.Serial.cells_sent_partial",
    "Verif.Serial.viscos0_violated",
    "Verif.Serial.calcViscosity_violated",
    "Verif.Serial.unknown_tag_throws"
   ],
   "note": "Violated: viscos_0 of solutions and calc_DDL_viscosity of surfaces are not packed; they become 1 and false. Descriptions and the workspace map z_gMCD_map are not packed either. Proved for everything else, for all reactants whose names have no white space and which are filed under their own numbers."
  },
  {
   "property": "C132",
   "status": "partial",
   "theorems": [
    "Verif.MpiMove.mpi_redistribute_partial",
    "Verif.MpiMove.mpi_temperature_violated"
   ],
   "note": "Proved for the seven kinds that are packed, up to the losses of C131. Violated: reaction temperatures and pressures of a cell that moves are deleted by the old owner and not packed. Mixes and reactions, which are not packed either, and the unsaturated-zone storage are not modelled."
  },
  {
   "property": "C133",
   "status": "partial",
   "theorems": [
    "Verif.Lockstep.sessions_end_partial",
    "Verif.Lockstep.mask_short_hangs",
    "Verif.Lockstep.transfer_failure_hangs",
    "Verif.Lockstep.other_communicator_hangs"
   ],
   "note": "Proved for all sequences of 21 kinds of calls (45 methods of MpiWorker), all engines, all schedules and buffering. Violated: a print mask that is too short, a transfer of cells that fails in one process, and a communicator other than MPI_COMM_WORLD leave the processes waiting for ever. Not covered: exit mode (2), calls not modelled."
  },
  {
   "property": "C134",
   "status": "partial",
   "theorems": [
    "Verif.Lockstep.settings_everywhere_partial"
   ],
   "note": "Proved for all executions under the conditions of C133."
  },
  {
   "property": "C135",
   "status": "partial",
   "theorems": [
    "Verif.Lockstep.cells_have_values_partial",
    "Verif.Lockstep.apply_loses_cells"
   ],
   "note": "Proved for all executions without StateApply. Violated: StateApply restores the ranges but does not distribute the values again. Pressure and temperature are not distributed after rebalancing and are excluded."
  },
  {
   "property": "C136",
   "status": "partial",
   "theorems": [
    "Verif.Lockstep.load_reports_partial",
    "Verif.Lockstep.runFile_reports_partial",
    "Verif.Lockstep.runString_reports_partial",
    "Verif.Lockstep.runCells_reports_partial",
    "Verif.Lockstep.initial_failure_unseen"
   ],
   "note": "Proved for the worker instances of all processes. Violated: failures of InitialPhreeqc and Utility are not noticed, since only r_vector[0] is gathered."
  },
  {
   "property": "C137",
   "status": "partial",
   "theorems": [
    "Verif.IPq.accumulated_partial",
    "Verif.IPq.accumulated_run_partial",
    "Verif.IPq.Violations.lines_kept_after_exception"
   ],
   "note": "Proved for all sessions in which the runs of accumulated lines come back. Violated: a run left by an exception does not set ClearAccumulated, and the next line is added to lines already run."
  },
  {
   "property": "C138",
   "status": "partial",
   "theorems": [
    "Verif.IPq.lines_partial",
    "Verif.IPq.messages_lines_partial",
    "Verif.IPq.Violations.no_lines_after_stop",
    "Verif.IPq.Violations.old_error_lines",
    "Verif.IPq.Violations.no_error_lines_after_load"
   ],
   "note": "Output, log and selected output: proved for all sessions whose last run or load returned 0. Errors and warnings: proved right behind a run that came back or a load that returned 0. Violated otherwise: a stopped run fills no lines; AccumulateLine and GetSelectedOutputValue clear the error string only; a failing load fills no error lines."
  },
  {
   "property": "C139",
   "status": "partial",
   "theorems": [
    "Verif.IPq.reports_partial",
    "Verif.IPq.Violations.database_warning_lost"
   ],
   "note": "Proved for every run that comes back, after all sessions without exceptions whose last load returned 0. Violated for loads: warnings about the database are cleared by the test run."
  },
  {
   "property": "C140",
   "status": "partial",
   "theorems": [
    "Verif.IPq.database_partial",
    "Verif.IPq.Violations.failed_load_is_loaded"
   ],
   "note": "Proved for all sessions whose last load returned 0, could not open its file, or does not exist. Violated: a load that fails in its test run leaves the database loaded."
  },
  {
   "property": "C141",
   "status": "partial",
   "theorems": [
    "Verif.IPq.components_partial",
    "Verif.IPq.Violations.stale_components"
   ],
   "note": "Proved for all sessions whose last run did not fail. Violated: a stopped run does not mark the list as stale."
  },
  {
   "property": "C142",
   "status": "partial",
   "theorems": [
    "Verif.IPq.switches_partial",
    "Verif.IPq.Violations.switches_lost"
   ],
   "note": "Proved for all sessions in which the loads come back. Violated: a load left by an exception leaves three switches off."
  },
  {
   "property": "C143",
   "status": "proved",
   "theorems": [
    "Verif.IPq.dump_lines",
    "Verif.IPq.dump_text"
   ],
   "note": "Lines for all sessions; the text for every run that comes back. The engine decides when to dump, and what."
  },
  {
   "property": "C144",
   "status": "partial",
   "theorems": [
    "Verif.IPq.selected_strings_partial",
    "Verif.IPq.Violations.wrong_switch"
   ],
   "note": "Proved for numbers whose switch equals that of the current number. Violated otherwise: get_sel_out_string_on ignores its argument."
  },
  {
   "property": "C145",
   "status": "partial",
   "theorems": [
    "Verif.IPq.defined_partial",
    "Verif.IPq.Violations.undefined_after_exception"
   ],
   "note": "Proved for all sessions without exceptions. Violated: after an exception the list of input streams holds a destroyed stream."
  },
  {
   "property": "C146",
   "status": "partial",
   "theorems": [
    "Verif.Input.lines_of_text_partial",
    "Verif.Input.every_text_has_parts",
    "Verif.Input.dos_text_reads_same",
    "Verif.Input.comment_behind_backslash_is_read",
    "Verif.Input.semicolon_behind_backslash_is_text"
   ],
   "note": "Proved for all texts without '#' or ';' behind a backslash and blanks. Violated there: the comment is not recognised until its line is cut, so a ';' in it splits the line, and ';' does not separate."
  },
  {
   "property": "C147",
   "status": "partial",
   "theorems": [
    "Verif.Input.includes_expanded_partial",
    "Verif.Input.includes_end",
    "Verif.Input.self_include_never_ends"
   ],
   "note": "Proved for all file systems and depths, texts as in C146; reading ends if no file includes itself. Violated: a file that includes itself is read forever."
  },
  {
   "property": "C148",
   "status": "proved",
   "theorems": [
    "Verif.Input.printed_lines_read_back",
    "Verif.Input.tokens_are_words"
   ],
   "note": "All lines of words without blanks, '#', ';' and backslash that are not include lines."
  },
  {
   "property": "C149",
   "status": "proved",
   "theorems": [
    "Verif.Pbasic.program_lines",
    "Verif.Pbasic.deleted_lines"
   ],
   "note": "All sequences of lines."
  },
  {
   "property": "C150",
   "status": "proved",
   "theorems": [
    "Verif.Pbasic.expression_value",
    "Verif.Pbasic.expression_written",
    "Verif.Pbasic.expression_unambiguous"
   ],
   "note": "All expressions over numbers, texts, variables, array elements, signs, NOT, functions of one number and the fifteen operators. Doubles are rationals."
  },
  {
   "property": "C151",
   "status": "partial",
   "theorems": [
    "Verif.Pbasic.conditions_combine_partial",
    "Verif.Pbasic.Violations.not_of_condition"
   ],
   "note": "Proved for AND, OR and XOR. Violated by NOT, which turns bits over: NOT of a condition is -1 or -2, never 0, so IF NOT c is always taken."
  },
  {
   "property": "C152",
   "status": "proved",
   "theorems": [
    "Verif.Pbasic.array_store",
    "Verif.Pbasic.array_range"
   ],
   "note": "All arrays and subscripts."
  },
  {
   "property": "C153",
   "status": "proved",
   "theorems": [
    "Verif.Pbasic.structured_program",
    "Verif.Pbasic.structured_part"
   ],
   "note": "All structured programs that end; the program may be followed by END and subroutines."
  },
  {
   "property": "C154",
   "status": "proved",
   "theorems": [
    "Verif.Pbasic.for_loop_times"
   ],
   "note": "Doubles are rationals."
  },
  {
   "property": "C155",
   "status": "proved",
   "theorems": [
    "Verif.Pbasic.read_in_order",
    "Verif.Pbasic.read_too_many",
    "Verif.Pbasic.data_at_start",
    "Verif.Pbasic.restored_data",
    "Verif.Pbasic.data_does_nothing"
   ],
   "note": "READ into simple variables."
  },
  {
   "property": "C156",
   "status": "partial",
   "theorems": [
    "Verif.Pbasic.goto_line",
    "Verif.Pbasic.on_goto",
    "Verif.Pbasic.on_gosub_partial",
    "Verif.Pbasic.Violations.on_gosub_leaves_a_call"
   ],
   "note": "Proved for ON GOTO, and for ON GOSUB with a number in the list. Violated otherwise: ON GOSUB outside its list leaves a call record behind, so the NEXT of an enclosing loop is an error."
  },
  {
   "property": "C157",
   "status": "partial",
   "theorems": [
    "Verif.Pbasic.first_use_partial",
    "Verif.Pbasic.Violations.nested_comma_at_first_use"
   ],
   "note": "Proved for subscripts that contain no comma themselves. Violated: a comma inside parentheses inside a subscript is a syntax error at the first use."
  },
  {
   "property": "C158",
   "status": "partial",
   "theorems": [
    "Verif.Pbasic.line_tokens",
    "Verif.Pbasic.parentheses_counted",
    "Verif.Pbasic.quote_closed",
    "Verif.Pbasic.line_unambiguous",
    "Verif.Pbasic.line_exists",
    "Verif.Pbasic.letter_size",
    "Verif.Pbasic.long_names_are_one",
    "Verif.Pbasic.long_names_coincide",
    "Verif.Pbasic.go_to_not_found"
   ],
   "note": "Proved for names of at most twenty characters. Violated for longer names: two names that agree in the first twenty characters are one variable."
  },
  {
   "property": "C159",
   "status": "partial",
   "theorems": [
    "Verif.Pbasic.text_lines",
    "Verif.Pbasic.text_in_order",
    "Verif.Pbasic.semicolon_in_string",
    "Verif.Pbasic.semicolon_between_items",
    "Verif.Pbasic.semicolon_before_number"
   ],
   "note": "Proved for lines that contain no semicolon and for numbers that fit a long. Violated for a semicolon within a string or between items of PUNCH: the line is cut there."
  },
  {
   "property": "C160",
   "status": "proved",
   "theorems": [
    "Verif.Pbasic.text_runs"
   ],
   "note": "For the texts of C159 whose line numbers grow."
  },
  {
   "property": "C161",
   "status": "proved",
   "theorems": [
    "Verif.CellRun.run_cells_refines",
    "Verif.CellRun.run_cells_repeatable"
   ],
   "note": "For mixes that do not name the working numbers -1 and -2. The chemistry of a step is a parameter, a function of the entities and times it is given."
  },
  {
   "property": "C162",
   "status": "partial",
   "theorems": [
    "Verif.CellRun.cells_on_their_own_partial",
    "Verif.CellRun.order_irrelevant_partial",
    "Verif.CellRun.calls_may_be_split",
    "Verif.CellRun.mix_sees_treated_violation"
   ],
   "note": "Proved when no mix of a listed cell names a listed cell (splitting over calls with a given start time is proved without this). Violated otherwise: a mix in a later cell sees the solution that an earlier cell has after its reactions."
  },
  {
   "property": "C163",
   "status": "proved",
   "theorems": [
    "Verif.CellRun.only_named_cells"
   ],
   "note": "Outside the working numbers -1 and -2."
  },
  {
   "property": "C164",
   "status": "partial",
   "theorems": [
    "Verif.CellRun.last_step_alone",
    "Verif.CellRun.one_step_modes_agree",
    "Verif.CellRun.one_row_per_step",
    "Verif.CellRun.steps_depend_on_history_violation"
   ],
   "note": "Proved for a given value of run_cells_one_step. Violated for the last part: RunCells of the reaction module sets this switch in a worker and nothing resets it, so the same RUN_CELLS input makes all steps before and one step after."
  },
  {
   "property": "C165",
   "status": "partial",
   "theorems": [
    "Verif.CellRun.time_advances_partial",
    "Verif.CellRun.time_advances_violation"
   ],
   "note": "Proved when the last treated cell has kinetic reactants. Violated when it has none (the time does not advance) and when no listed cell exists (the time of an earlier calculation is added)."
  },
  {
   "property": "C166",
   "status": "partial",
   "theorems": [
    "Verif.CellRun.finished_not_again",
    "Verif.CellRun.failed_still_defined",
    "Verif.CellRun.failed_runs_again_violation"
   ],
   "note": "Proved after a run that succeeds. Violated after a run that fails: the list stays in force and the next calculation without RUN_CELLS treats the same cells again."
  },
  {
   "property": "C167",
   "status": "partial",
   "theorems": [
    "Verif.CellRun.worker_treats_once_partial",
    "Verif.CellRun.nothing_left_over",
    "Verif.CellRun.failed_cell_reacts_twice_violation",
    "Verif.CellRun.first_failure_unnoticed"
   ],
   "note": "Proved when the last active cell of the worker did not fail in the time step before. Violated otherwise: the input that RunCellsThread runs first, which has no RUN_CELLS, reacts that cell again over the old time step."
  },
  {
   "property": "C168",
   "status": "proved",
   "theorems": [
    "Verif.CellRun.threads_agree"
   ],
   "note": "For cells without MIX definitions, and workers with nothing left over from a failure (C167)."
  },
  {
   "property": "C169",
   "status": "partial",
   "theorems": [
    "Verif.Equation.balanced_iff_partial",
    "Verif.Equation.check_iff",
    "Verif.Equation.two_colons_balance_violation"
   ],
   "note": "For the equations of C170 with formulas of C117. For all lists of species check_iff says what is accepted in terms of what the reader of formulas finds. Violated for formulas that are misread (two colons)."
  },
  {
   "property": "C170",
   "status": "partial",
   "theorems": [
    "Verif.Equation.equation_read_partial",
    "Verif.Equation.charge_read",
    "Verif.Equation.name_keeps_charge",
    "Verif.Equation.octal_charge_violation",
    "Verif.Equation.large_charge_violation",
    "Verif.Equation.fraction_charge_violation",
    "Verif.Equation.lone_equal_sign_violation"
   ],
   "note": "Proved for charges that are whole numbers below 2^31 without leading zeros. Violated: leading zeros make a charge octal, larger charges change value and sign, text behind a fraction is ignored, a lone equal sign takes the species of the equation before."
  },
  {
   "property": "C171",
   "status": "partial",
   "theorems": [
    "Verif.Reaction.species_rewritten_partial",
    "Verif.Reaction.masters_stay",
    "Verif.Reaction.species_accepted",
    "Verif.Reaction.secondary_rewritten_partial",
    "Verif.Reaction.secondary_accepted",
    "Verif.Reaction.primary_identity",
    "Verif.Reaction.species_exact",
    "Verif.Reaction.master_identity",
    "Verif.Reaction.small_term_violation",
    "Verif.Reaction.lone_species_violation",
    "Verif.Reaction.cancelled_species_violation",
    "Verif.Reaction.twenty_species_violation"
   ],
   "note": "Exact when all coefficients are multiples of one number above 1e-5; otherwise up to lost terms of at most 1e-5. Violated: merged terms of at most 1e-5 are dropped, an equation with one species picks up an entry of another reaction, a reaction that cancels brings a removed species back with coefficient zero, twenty species that are not master species are refused although there is no cycle."
  },
  {
   "property": "C172",
   "status": "partial",
   "theorems": [
    "Verif.Reaction.phase_rewritten_partial",
    "Verif.Reaction.two_formula_units_violation"
   ],
   "note": "As C171, for phases whose equations define one formula unit. Violated when a phase that is replaced has another leading coefficient."
  },
  {
   "property": "C173",
   "status": "partial",
   "theorems": [
    "Verif.Reaction.solution_rewritten_partial",
    "Verif.Reaction.solution_exact",
    "Verif.Reaction.unknown_couple_violation"
   ],
   "note": "Exact for whole numbers; otherwise up to lost terms. A couple without a reaction is undefined behaviour. The terms of surfaces (diffuse layer) are not modelled."
  },
  {
   "property": "C174",
   "status": "partial",
   "theorems": [
    "Verif.Reaction.couple_partial",
    "Verif.Reaction.swap_obeys",
    "Verif.Reaction.swap_works"
   ],
   "note": "Up to lost terms as in C171; the primary master species is shown to cancel when it occurs once in each reaction."
  },
  {
   "property": "C175",
   "status": "partial",
   "theorems": [
    "Verif.Kinetics.time_covered",
    "Verif.Kinetics.rates_within",
    "Verif.Kinetics.early_end_alone",
    "Verif.Kinetics.no_end"
   ],
   "note": "Violated: trials in which an element gets a negative amount are not counted, so the limit for bad steps does not limit them and the integration need not end. Not modelled: CVODE, exchangers and surfaces related to a reactant, limit_rates."
  },
  {
   "property": "C176",
   "status": "partial",
   "theorems": [
    "Verif.Kinetics.amounts_right",
    "Verif.Kinetics.mass_kept_partial",
    "Verif.Kinetics.order_two_solids",
    "Verif.Kinetics.stale_result"
   ],
   "note": "Proved if the first calculation has a result and the order is not two with solid solutions. Violated: order two sets solid solutions back after they were saved; a negative amount in the first calculation is not looked at and an old result is saved into the cell."
  },
  {
   "property": "C177",
   "status": "partial",
   "theorems": [
    "Verif.Kinetics.constant_rates",
    "Verif.Kinetics.polynomial_rates",
    "Verif.Kinetics.order_one_time",
    "Verif.Kinetics.order_one_late"
   ],
   "note": "Rates of at most 1e-25 moles in the time step are taken as nothing. Violated with order one: rates that depend on the time are taken as constant."
  },
  {
   "property": "C178",
   "status": "partial",
   "theorems": [
    "Verif.Kinetics.steps_of_method_partial",
    "Verif.Kinetics.steps_of_order_one_partial",
    "Verif.Kinetics.order_one_trial"
   ],
   "note": "Proved for every order but one. Violated with order one: the minerals are not set back before the second evaluation."
  },
  {
   "property": "C179",
   "status": "proved",
   "theorems": [
    "Verif.Assemble.start_is_sum"
   ],
   "note": "Names in diffuse layers carry no redox state. Not modelled: isotopes, potV, state TRANSPORT."
  },
  {
   "property": "C180",
   "status": "proved",
   "theorems": [
    "Verif.Assemble.fails_iff"
   ],
   "note": "Compositions have no negative coefficients and the list of elements of an assemblage is complete."
  },
  {
   "property": "C181",
   "status": "partial",
   "theorems": [
    "Verif.Assemble.minerals_give",
    "Verif.Assemble.minerals_delta_partial",
    "Verif.Assemble.components_give",
    "Verif.Assemble.used_up_forgotten"
   ],
   "note": "All proved but the account for minerals that are used up. Violated there: pp_assemblage_check sets their recorded change to zero."
  },
  {
   "property": "C182",
   "status": "partial",
   "theorems": [
    "Verif.Assemble.averages_partial",
    "Verif.Assemble.negative_fraction"
   ],
   "note": "Proved without negative fractions. Violated with one: the weight that is passed on is not the one that was set to zero."
  },
  {
   "property": "C183",
   "status": "partial",
   "theorems": [
    "Verif.Assemble.marks_exact",
    "Verif.Assemble.ss_marks_partial",
    "Verif.Assemble.later_component_forgotten"
   ],
   "note": "Proved for minerals. Violated for solid solutions: the inner loop counts with the variable of the outer one, so later components are passed over."
  },
  {
   "property": "C184",
   "status": "partial",
   "theorems": [
    "Verif.Assemble.limit_is_most_partial",
    "Verif.Assemble.system_totals",
    "Verif.Assemble.absent_element_ignored",
    "Verif.Assemble.other_formula_ignored"
   ],
   "note": "Proved if each element is listed. Violated otherwise: an absent element does not limit, and minerals with an alternative formula are not counted."
  },
  {
   "property": "C185",
   "status": "partial",
   "theorems": [
    "Verif.Reuse.prep_partial",
    "Verif.Reuse.history_partial",
    "Verif.Reuse.other_components_kept",
    "Verif.Reuse.more_components_fault",
    "Verif.Reuse.empty_gas_fault",
    "Verif.Reuse.other_gas_fault"
   ],
   "note": "Proved for cells without surface if cells that are taken for the same are alike in the components of solid solutions and in how a gas is treated. Violated otherwise: check_same_model compares only the names of solid solutions, a gas phase without components counts as none, and pr_in is not compared."
  },
  {
   "property": "C186",
   "status": "proved",
   "theorems": [
    "Verif.Reuse.site_once"
   ],
   "note": "All exchangers; an exchange site without a total gets the least amount."
  },
  {
   "property": "C187",
   "status": "proved",
   "theorems": [
    "Verif.Reuse.kept_iff"
   ],
   "note": "Cells without surface, as step leaves them."
  },
  {
   "property": "C188",
   "status": "partial",
   "theorems": [
    "Verif.Lockstep.readings_partial",
    "Verif.Lockstep.readings_gathered",
    "Verif.Lockstep.owned",
    "Verif.Lockstep.viscosity_is_volume"
   ],
   "note": "Proved for all readings but the viscosity. GetViscosity asks the workers for the volume of the solution (wrong method number), so the viscosities of the cells of workers are volumes: proved violation. Missing as in C133."
  },
  {
   "property": "C189",
   "status": "proved",
   "theorems": [
    "Verif.CArrays.c_as_cpp",
    "Verif.CArrays.getters_succeed"
   ],
   "note": "Functions with one double or int per grid cell, build without MPI; RM_GetSaturationCalculated and arrays with several values per cell are not modelled."
  },
  {
   "property": "C190",
   "status": "proved",
   "theorems": [
    "Verif.CArrays.porosity_last",
    "Verif.CArrays.porosity_first"
   ],
   "note": "Sequences of the modelled calls."
  },
  {
   "property": "C191",
   "status": "partial",
   "theorems": [
    "Verif.CArrays.getters_write_partial",
    "Verif.CArrays.stale_array"
   ],
   "note": "Proved for all but the porosity. RM_GetPorosity fails after a longer vector was set by InitializeYAML or C++ and leaves the array as it was: proved violation."
  },
  {
   "property": "C192",
   "status": "partial",
   "theorems": [
    "Verif.CArrays.null_refused_partial",
    "Verif.CArrays.null_fault"
   ],
   "note": "Proved for the setters, RM_GetDensityCalculated and RM_GetSolutionVolume. RM_GetPorosity, RM_GetPressure, RM_GetTemperature and RM_GetViscosity use the null pointer: proved violation."
  },
  {
   "property": "C193",
   "status": "partial",
   "theorems": [
    "Verif.Getters.logs_partial",
    "Verif.Getters.absent_is_one"
   ],
   "note": "Proved for the species of the solution when all of them are in the table of the module. Species that the solution does not have are shown as zero, a molality of one: proved violation."
  },
  {
   "property": "C194",
   "status": "partial",
   "theorems": [
    "Verif.Print.printed_partial",
    "Verif.Print.printed_any_workers_partial",
    "Verif.Print.mask_of_first_only"
   ],
   "note": "Proved when all grid cells of a reaction cell agree on the mask. Only the mask of the first grid cell is read: proved violation."
  },
  {
   "property": "C195",
   "status": "partial",
   "theorems": [
    "Verif.Print.stopped_partial",
    "Verif.Print.stray_line"
   ],
   "note": "Proved when the failing cells are to be printed. A failing cell that is not to be printed writes a message of the engine to the output file: proved violation."
  },
  {
   "property": "C196",
   "status": "partial",
   "theorems": [
    "Verif.CTables.table_got_partial",
    "Verif.CTables.table_refused",
    "Verif.CTables.nothing_to_copy",
    "Verif.CTables.no_selected_output",
    "Verif.CTables.large_table"
   ],
   "note": "Proved for tables that are not empty and whose size is an int. Empty tables and larger ones are undefined behaviour, and RM_GetSelectedOutput lets an exception escape when there is no selected output: proved violations."
  },
  {
   "property": "C197",
   "status": "partial",
   "theorems": [
    "Verif.CTables.table_set_partial",
    "Verif.CTables.set_nothing",
    "Verif.CTables.back_partial",
    "Verif.CTables.size_null"
   ],
   "note": "Proved for tables that are not empty and whose size is an int, and for a pointer to the size that is not null; the other cases are undefined behaviour: proved violations."
  },
  {
   "property": "C198",
   "status": "proved",
   "theorems": [
    "Verif.Files.files_hold",
    "Verif.Files.Demo.warning_in_output"
   ],
   "note": "Build without MPI, error handler mode 0. Warnings go to the output file too, which the documentation does not say."
  },
  {
   "property": "C199",
   "status": "proved",
   "theorems": [
    "Verif.Files.closed_silent"
   ],
   "note": "Build without MPI, error handler mode 0."
  },
  {
   "property": "C200",
   "status": "partial",
   "theorems": [
    "Verif.Files.open_refused_partial",
    "Verif.Files.half_open",
    "Verif.Files.empty_prefix_kept"
   ],
   "note": "Proved when the log file cannot be opened. If only the output file cannot be opened the log file is emptied and stays open, and an empty prefix is refused but kept: proved violations."
  },
  {
   "property": "C201",
   "status": "proved",
   "theorems": [
    "Verif.Files.screen_shows",
    "Verif.Files.Demo.error_needs_screen"
   ],
   "note": "Build without MPI, error handler mode 0, not the Python build; messages of the workers are left out."
  },
  {
   "property": "C202",
   "status": "partial",
   "theorems": [
    "Verif.Agree.check_partial",
    "Verif.Agree.check_compares",
    "Verif.Agree.check_repaired",
    "Verif.Agree.Demo.mismatch_accepted",
    "Verif.Agree.Demo.no_columns_refused",
    "Verif.Agree.missing_undefined",
    "Verif.Agree.Demo.missing_case"
   ],
   "note": "Proved that the number of rows is checked, for tables with columns that every thread has. Headings are not compared without MPI, and tables without columns are refused; a table that a thread lacks makes the check undefined: proved violations. check_compares and check_repaired say what the check does with another bound of its loops."
  },
  {
   "property": "C203",
   "status": "partial",
   "theorems": [
    "Verif.CBoundary.concentrations_partial",
    "Verif.CBoundary.concentrations_refused",
    "Verif.CBoundary.concentrations_unready",
    "Verif.CBoundary.no_entries",
    "Verif.CBoundary.negative_entries"
   ],
   "note": "Proved for a positive number of entries and under the conditions of C63. No entries are undefined behaviour and a negative number lets an exception out of the C function: proved violations."
  },
  {
   "property": "C204",
   "status": "partial",
   "theorems": [
    "Verif.CInit.initial_partial",
    "Verif.CInit.initial_refused",
    "Verif.CInit.initial_large",
    "Verif.CInit.Demo.nulls"
   ],
   "note": "Proved under the conditions of C32 and C77 for grids of up to INT_MAX / 7 cells; beyond that the product overflows (proved). Null arrays are handled, unlike empty vectors in the class."
  },
  {
   "property": "C205",
   "status": "partial",
   "theorems": [
    "Verif.CInit.cell_partial",
    "Verif.CInit.initial_refused",
    "Verif.CInit.cell_none"
   ],
   "note": "Proved for a positive number of cells under the conditions of C119. An empty list is undefined behaviour and a negative number lets an exception out of the C function: proved violations."
  },
  {
   "property": "C206",
   "status": "partial",
   "theorems": [
    "Verif.CInit.species_partial",
    "Verif.CInit.species_refused",
    "Verif.CInit.species_none"
   ],
   "note": "Proved for a positive number of entries under the conditions of C116. No entries are undefined behaviour and a negative number lets an exception out: proved violations."
  },
  {
   "property": "C207",
   "status": "partial",
   "theorems": [
    "Verif.CInit.one_partial",
    "Verif.CInit.one_null",
    "Verif.CInit.Demo.one_applies"
   ],
   "note": "Proved for arrays that are not null; a null array is read (proved violation)."
  },
  {
   "property": "C208",
   "status": "proved",
   "theorems": [
    "Verif.CInit.fortran_same"
   ],
   "note": "Arrays of Fortran are not null. Every outcome is covered, undefined behaviour included."
  },
  {
   "property": "C209",
   "status": "proved",
   "theorems": [
    "Verif.Catalog.species_lists",
    "Verif.Catalog.species_named",
    "Verif.Catalog.Demo.lists_case",
    "Verif.Catalog.Demo.named_applies"
   ],
   "note": "After every history of calls; which species are in the model of the solution is given."
  },
  {
   "property": "C210",
   "status": "partial",
   "theorems": [
    "Verif.Catalog.si_partial",
    "Verif.Catalog.si_history",
    "Verif.Catalog.si_repeated",
    "Verif.Catalog.Demo.twice"
   ],
   "note": "Proved for a single call that finds phases; violated by the code after a second call (proved)."
  },
  {
   "property": "C211",
   "status": "proved",
   "theorems": [
    "Verif.Python.python_stoichiometry",
    "Verif.Python.stale_lists",
    "Verif.Python.Demo.stoichiometry_case"
   ],
   "note": "For databases whose species have different names, after every history of calls. The function of the class alone appends to lists that are not empty (proved)."
  },
  {
   "property": "C212",
   "status": "proved",
   "theorems": [
    "Verif.Python.python_backward"
   ],
   "note": "For every backward mapping; the order of insertion of the dictionary is not modelled."
  },
  {
   "property": "C213",
   "status": "partial",
   "theorems": [
    "Verif.Python.set_partial",
    "Verif.Python.array_of_one_lost",
    "Verif.Python.Demo.one_and_two",
    "Verif.Python.Demo.reached"
   ],
   "note": "Violated for arrays with one item: the value passed has no effect (proved for every such variable and state). Proved for arrays with two or more items and for the numbers."
  },
  {
   "property": "C214",
   "status": "partial",
   "theorems": [
    "Verif.Python.prefix_partial",
    "Verif.Python.prefix_stuck",
    "Verif.Python.Demo.prefix_case"
   ],
   "note": "Violated when the prefix in force is empty: division by zero, for every value passed. Proved otherwise."
  },
  {
   "property": "C215",
   "status": "partial",
   "theorems": [
    "Verif.Catalog.column_partial",
    "Verif.Catalog.column_fresh",
    "Verif.Catalog.column_short",
    "Verif.Catalog.Demo.column_case"
   ],
   "note": "Violated for modules in which no call of FindComponents got to the species: the address of the first entry of an empty vector is taken (proved). Proved for every history that found a species."
  }
 ]
}