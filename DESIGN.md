# Formal model of PhreeqcRM in Lean 4

## Scope

The model covers the bookkeeping of PhreeqcRM (`/repo/src/PhreeqcRM.cpp`, `BMIPhreeqcRM.cpp`,
`VarManager.cpp`, `YAMLPhreeqcRM.cpp`, `RM_interface_C/F.cpp`, `bmi_*`) and of the containers and
reactants it drives (`/repo/src/IPhreeqcPhast/...`). Chemistry itself (the equilibrium solver) is
a parameter: an arbitrary function on the contents of a cell.

## Trusted base

* The Lean 4.33.0 kernel, and Mathlib lemmas checked by it.
* Axioms: each property theorem depends on at most `propext`, `Classical.choice` and `Quot.sound`.
  `Verif/Axioms.lean` lists the axioms of every theorem named in `MANIFEST.json` and fails the
  build if another one appears. No axiom is added, nothing is left with `sorry`, and no proof
  uses compiled evaluation.
* The reading of the C++ source. Every definition cites file and lines. The code was read as
  text, never built or run.
* Modelling choices that are *not* proved:
  * `double` is modelled by exact rationals. Rounding and overflow are not modelled. A quotient
    with a zero divisor, which gives NaN or an infinity, is the distinct outcome `ub` where the
    code can reach it, or is excluded by a premise.
  * `int` and `size_t` are unbounded integers and naturals, except where a bound is the point
    (`Registry` ids, `CellList` numbers, the progress message of `Dump`).
  * Memory is not modelled, but an out-of-bounds access, a null dereference, a dangling pointer,
    a data race or a use of an unset value is the outcome `ub` of the function that does it.
  * The build without MPI is modelled (`Pack`, `Scatter`, `MpiMove` and `Lockstep` model code of the MPI build). Workers
    run one after another or in any interleaving where that matters (`Store`, C08): a worker's
    step touches only its own instance, which is how `workers[n]` is used. Shared files are
    covered in `Routing`.
  * The geochemical solver, the PHREEQC parser, zlib, yaml-cpp and the C++ library are parameters
    or are replaced by their documented contracts.
  * Strings are lists of characters; C strings end at the first NUL where the code uses
    `c_str()` or `strncpy`.

## Layout

`lean/Verif/<Topic>/Model.lean` holds the model, `Spec.lean` (where present) the independent
vocabulary of the statements, `Lemmas.lean` the helper lemmas, `Props.lean` the property theorems
and `Cases.lean` concrete instances that meet the hypotheses, with the violations. Theorems that
show the code violates a property are named `..._violated`; the part that does hold is named
`..._partial`, and its comment keeps the full statement in view. `seeded/LOG.jsonl` records the
wrong programs the theorems were tested against.

## What is modelled

| topic | code |
|-------|------|
| `Ranges` | `SetEndCells` |
| `Mapping` | `CreateMapping` with the order of its changes |
| `Rebalance` | `RebalanceLoad`, `RebalanceLoadPerCell` |
| `Store`, `Transfer` | storage bins (`Add`, `Copy`, `Remove`), moving cells between workers, running cells |
| `PartitionUZ` | `PartitionUZ`, histories of saturations |
| `OMap`, `NameDouble`, `Serial` | sorted maps, `cxxNameDouble`, dictionaries, `Serialize`/`Deserialize` |
| `Grid`, `Conc` | grid getters, `SetConcentrations`, `GetConcentrations`, unit conversions |
| `Getters` | density, saturation, pressure, temperature, viscosity, volume, species getters |
| `Protocol` | `SetIthConcentration`/`GetIthConcentration`, staging, caching, cell check of `RunCells` |
| `State` | `StateSave`, `StateApply`, `StateDelete` |
| `SelOut` | `CSelectedOutput`, selected output of cells and its reading |
| `Components` | `FindComponents` and all lists it builds |
| `Mixing` | `cxxMix`, mixing constructors and `multiply` of solutions and all reactants |
| `InitCond` | `InitialPhreeqc2Module` family, `InitialPhreeqcCell2Module`, `CellInitialize` |
| `Boundary` | `InitialPhreeqc2Concentrations` |
| `Gas` | `Set/GetGasCompMoles`, `Set/GetGasPhaseVolume`, pressures and fugacities |
| `Setters` | grid setters, unit setters, switches, names, `ReturnHandler`, `ErrorHandler` modes |
| `Registry` | `StaticIndexer`/instance registry, `Create`, `Destroy`, ids |
| `BMI` | variable table, `GetValue`, `SetValue`, `GetValuePtr`, time, `Update` |
| `AutoOutput` | automatic output variables of `BMIPhreeqcRM` |
| `Yaml` | `YAMLPhreeqcRM` recording, `InitializeYAML` replay, grid size lookup |
| `Dump` | `DumpModule`, `dump_raw`/`read_raw` blocks, number format |
| `CellList` | `StorageBinListItem`, `-cells` ranges, DELETE/DUMP/RUN_CELLS lists |
| `FString` | strings crossing to C and Fortran |
| `Pack`, `Scatter` | cell packing between processes, `ScatterNchem`, `GatherNchem` |
| `Steps` | reaction and kinetics steps, temperature/pressure ramps, time units, run times |
| `Routing` | `RunString`, `RunFile`, `LoadDatabase`, error collection |
| `CheckCells` | `CheckCells` |
| `Utility` | `Concentrations2Utility` |
| `Species` | `SpeciesConcentrations2Module`, `InitialPhreeqc2SpeciesConcentrations` |
| `Formula` | `get_elt`, `get_num`, `get_elts_in_species`, `compute_gfw`, `Get_gfw` |
| `CellCopy` | `InitialPhreeqcCell2Module` |
| `SelNav` | selecting among selected outputs: `GetNthSelectedOutputUserNumber`, `SetNthSelectedOutput`, `SetCurrentSelectedOutputUserNumber`, `GetSelectedOutputCount`, `…ColumnCount`, `…Heading(s)`, and what `RunCells` and `LoadDatabase` do to the selection |
| `Raw` | dump files: the line reader (`CParser::get_option`, `getOptionFromLastLine`), `dump_raw` and `read_raw` of exchange assemblages, solutions, gas phases, reaction temperatures and pressures, reactions, mixtures, kinetics, equilibrium phases, solid solutions and surfaces |
| `Serial/Entities`, `Serial/Cells` | `Serialize`/`Deserialize` of all reactant classes and `Serializer::Serialize`/`Deserialize` of cells (MPI transfer) |
| `MpiMove` | transfer of cells between processes in `RebalanceLoad` and `RebalanceLoadPerCell`, MPI build |
| `Lockstep` | the MPI build as processes that communicate: MPI calls with their matching rules (`Comm`), the root's side and the worker's side of 45 methods, `MpiWorker`'s loop, `HandleErrorsInternal`, `RebalanceLoad`, all interleavings |
| `IPq` | the IPhreeqc instance around the engine: AccumulateLine, RunAccumulated, RunString, RunFile, LoadDatabase(String) with test_db, check_database, do_run's bookkeeping, message handlers, strings and lines, switches, ListComponents, getters; the engine itself is any function that gives messages, an ending and a new state |
| `Input` | PHRQ_io::getc, get_logical_line, get_line, check_key, include streams; CParser::copy_token; trim: from the characters of an input to the lines and words its readers get |
| `Pbasic` | the BASIC interpreter PBasic: the division of a text into lines and tokens (`Lex*`), expression parser, variables and arrays, program lines, LET, DIM, PUNCH, GOTO, IF, FOR, NEXT, WHILE, WEND, GOSUB, RETURN, READ, DATA, RESTORE, ON, END; not the chemistry functions, the string functions and hexadecimal numbers |
| `CellRun` | RUN_CELLS inside one instance: run_as_cells, set_advection, copy_use, set_reaction, saver, the slots -1 and -2, steps and times; the chemistry of a step is any function of the entities and times it is given; on top of it the calls of RunString that RunCellsThread makes |
| `Equation` | chemical equations: parse_eq, get_coef, get_token, get_charge, trxn_sort, elt_list_combine, check_eqn; on top of `Formula` |
| `Reaction` | the work array of reactions: trxn_add, trxn_add_phase, trxn_combine, trxn_reverse_k, trxn_copy, trxn_multiply, trxn_swap; rewriting to secondary and primary master species, replace_solids_gases, the loops of tidy_model over species, master species and phases, write_mass_action_eqn_x, rewrite_master_to_secondary; one constant stands for all analytical coefficients |
| `Kinetics` | rk_kinetics: step control, the six evaluations, early ends of orders one to three, bookkeeping of moles, saving and setting back of the cell; the chemistry and the rate programs are any functions; not CVODE |
| `Assemble` | step: add_solution, add_mix, add_reaction, add_kinetics, add_exchange, add_surface, add_gas_phase, add_pp_assemblage, add_ss_assemblage, the checks for missing elements, solution_check, what is stored as solution -1, delta_max; not isotopes, starting guesses for activities, TRANSPORT |
| `Reuse` | prep, quick_setup, check_same_model, save_model, setup_exchange, setup_gas_phase, setup_fixed_volume_gas, setup_ss_assemblage, setup_pure_phases, the mass balances of setup_solution, step_save_exch; not surfaces, the equations themselves, real-gas corrections |
| `CArrays` | the functions of the C interface with one value per grid cell: copying between arrays and vectors, null pointers, result codes |
| `Print` | the text that `RunCells` writes to the output file: headings, printout, dry and failing cells, streams of the workers |
| `CTables` | the functions of the C interface with several values per grid cell, and `RM_GetBackwardMapping`: sizes, copying, result codes |
| `Files` | `OpenFiles`, `CloseFiles`, `SetFilePrefix`, the message functions, and the switches of the screen |
| `Agree` | `CheckSelectedOutput`: the comparison of the selected output of the threads in debug builds |
| `CBoundary` | `RM_InitialPhreeqc2Concentrations`: copying of lists and results around `Boundary` |
| `CInit` | `RM_InitialPhreeqc2Module`, `RM_InitialPhreeqcCell2Module`, `RM_InitialPhreeqc2SpeciesConcentrations`: copying of arrays around `InitCond`, `CellCopy` and `Species`; the calls for one kind and the Fortran functions |
| `Catalog` | `FindComponents`: the lists of aqueous species with their table of numbers, and the list of saturation indices; `RM_GetSpeciesZ` and `RM_GetSpeciesD25` |
| `Python` | `GetSpeciesStoichiometry` and `GetBackwardMapping` of the Python class: flat lists made in C++ and taken apart in Python; `set_value` for numbers, arrays and the file prefix |
| `Axioms` | prints and restricts the axioms of all property theorems |

Not modelled: the solver and its tables, the text parser of PHREEQC, the calls of `MpiWorker` outside `Lockstep`, the MPI library itself,
the Fortran modules themselves, `OpenFiles`/`CloseFiles`, and the parts of each function that the
comment on its definition names.

## Findings in the code

Each is stated by a `..._violated` theorem or, where marked (read), only noted while reading.

*Mapping and load balance.* A rejected `CreateMapping` has already changed the module (C04).
Rebalancing with an accepted fraction above 1, or by cell with a fraction below 1/2, gives ranges
that are no partition (C05, C06); without recorded times it divides by zero. REACTION, MIX,
REACTION_TEMPERATURE and REACTION_PRESSURE definitions of a cell do not follow it (C64);
unsaturated-zone solids do not follow a cell while partitioning is off (C65); small drifts of the
saturation are never repartitioned (C11).

*Concentrations.* The mass of water is set to oxygen/55.5 (C15); amounts below 1e-25 mol become
zero (C13); the cache of `GetIthConcentration` is stale after `SetConcentrations` (C21); staged
values survive a failing run (C20); the check for missing solutions is skipped from the second run
on (C22). `Concentrations2Utility` converts water but not the other components with the density in
mass fractions (read).

*Getters.* Vectors passed in by the caller keep old values at inactive cells (C17, C68); failure
codes are dropped (C67); a species unknown to a cell is inserted with 0 (C69). The gas getters mark
inactive cells with the double 1e30, the others with the float (C16).

*State.* `StateApply` leaves cached values and partitioned solids as they were (C19); gas phases
made by `SetGasCompMoles`/`SetGasPhaseVolume` carry number 1, so that saving, dumping and packing
keep only one of them (C81, C55, C59).

*Selected output.* Blank rows are dropped while a table has no column (C24); the number of columns
comes from worker 0 only (C26); inactive cells keep old values; `assert(ncol_x = ncol)` assigns
(read).

*FindComponents.* Switching water as a component breaks the list (C28); solid-solution names get
out of step (C29); saturation-index names are appended again (C72).

*Mixing.* The second part of an equilibrium phase with another formula is dropped (C49); surface
areas grow (C52); gas phases of different types lose all gas (C53); species lacking in one part and
isotope ratios are not scaled (C75, C76); named intensive values only in the first list are not
scaled (C51); `merge_redox` erases a prefix one character short (C48); `SScomp::multiply` leaves
out `init_moles`, `cxxSolution::multiply(0)` does nothing (read).

*Initial and boundary conditions.* The second KINETICS number is looked up among the solid solutions
(C32); a failed call leaves cells that a later call distributes (C78); vector sizes of the one-kind
helpers and of empty second lists are not checked (C30). Boundary numbers without a solution are not
reported, fraction 0 without a second solution divides by zero, and a MIX number stands in for the
highest solution (C63).

*Gas.* A component under two spellings (C33), component-less gas phases (C80), sizes checked by
`assert` only (read).

*Setters.* A refused `SetErrorHandlerMode` resets the mode; refused empty names are stored (C84).
`SetGeneric` failures come back as IRM_FAIL; longer vectors are kept whole.

*Registry.* `CleanupBMIModuleInstances` blocks on its own mutex (C38); objects not made with `new`
are deleted (C85); searching without the lock races (C86); ids wrap after 2^31 constructions (C37).

*BMI.* See C40, C42, C43, C87 to C92; `SetValue("DensityUser")` announces `DensityCalculated`;
`SetValue(name, double)` on a vector variable uses stale values.

*YAML.* `LogMessage` and `SetNthSelectedOutput` are recorded but not read (C45); items are read by
position (C94); return codes are ignored (C95).

*Dump, cell lists, strings.* C55, C56, C96 to C103. Pressures are neither dumped nor read.

*MPI.* Members that are not packed (C59), grid cells of one reaction cell (C60); the scatter of
temperature and pressure after rebalancing is commented out (read).

*Running.* `-steps T in 0` is accepted (C61); the time step -98.7654321 means undefined (C107);
TOTAL_TIME is 0 without kinetics (C108); input after NUL is not run and output races (C62);
`RunFile("")` can report success (C111); an exception in `LoadDatabase` leaves instances unloaded and
escapes a parallel region in OpenMP builds (C112); the message of `CheckCells` prints positions
instead of cell numbers (C113).

*Utility and species.* `Concentrations2Utility` multiplies the water of mass fractions by the density
of a grid cell, drops sets without positive H and O, and divides by zero before `FindComponents`
(C114). `SpeciesConcentrations2Module` does not check the size of its vector, stores a total named
H2O and empties dry cells (C115). Species in one of two mixed solutions are not diluted (C116).

*Formulas.* In `A:2B:3C` the 3 is multiplied by the 2; colons inside parentheses are read wrongly or
refused; a lone point is 0; `[` at the end is read past the end (C117). `Get_gfw` ignores errors (C118).
`gfw_map` is cleared by SOLUTION_MASTER_SPECIES only, not when EXCHANGE_MASTER_SPECIES resets a weight
(read.cpp:1167, read.cpp:3682; read).

*Copying a cell.* `InitialPhreeqcCell2Module` does not remove the reactants a cell had before, does not
use MIX, does not check grid numbers (read outside the mapping), and passes over a grid cell that is not
the first of its reaction cell (C119).

*Selecting a selected output.* `GetSelectedOutputCount` counts the tables of the last `RunCells`, while
`GetNthSelectedOutputUserNumber` counts definitions: before `RunCells`, and after a run with selected
output off, the count is 0; after `LoadDatabase` it is stale (C120). `RunCells` with selected output on
leaves the definition with the largest number selected, and undefined numbers can be selected (C121).
The comparison of the workers' tables is treated in `Verif/Agree` (C202).

*Restart from dump files.* Lines are split in words and numbers (a word never looks like a number);
printing is a rounding function, arbitrary in the theorems. In the totals of an exchange component the
line `La x` is read as the option `-la` and the lanthanum is lost; a component named like an entry in the
totals of an earlier one is dropped; workspace totals make the reader stop (C122). In a solution the line
`Fe(2)` erases the total of `F`, `Pu(4)` that of `P`, `Br(..)` that of `B`, `Cr(..)` or `Cu(..)` that of
`C`, because `merge_redox` cuts one character too many (C123). Isotopes are written without their name
and cannot be read: each gives eight or nine errors and is lost (C123). The errors go to the parser, so
the entity is stored although it is incomplete (Phreeqc.h:1997-2003; read).
The line `-p` of a gas component is matched by the earlier, obsolete option `phase_name`, so partial
pressures are not restored (C124). In the stored totals, `Si` of an equilibrium phase is the option `-si`
(the target saturation index silently becomes the amount of silicon, C127) and `P` of a solid solution is
the option `-p` (C128). These stored totals are normally empty, since `step.cpp:231-246` totals work on
copies. A phase that is both `dissolve_only` and `precipitate_only` loses the former on reading (C127).
By reading only: `-totals` directly after a gas component leaves `useLastLine` set and loops forever
(GasPhase.cxx:421-432; no dumped text has this); text that is no boolean after `-equal_increments` of
`KINETICS_RAW` resets `use_cvode` (cxxKinetics.cxx:355-361); `StorageBin::dump_raw` does not write reaction
pressures.
For surfaces (C129): `calc_DDL_viscosity` is neither dumped nor serialized, so a viscosity that is to be
calculated becomes the constant 1 after a restart or a transfer between workers; `La` in the totals of a
component is the option `-la`, here the amount even replaces the log activity since `-la` is written before
the totals; non-empty workspace totals are "Unknown input". By reading only: `-charge_component` without a
name is treated again without end (`useLastLine`, Surface.cxx:347).

The whole file (C130) is the composition of C122 to C129 with the dispatcher `read_input`: since every
`read_raw` stops at the next keyword and every block starts with one, blocks do not influence each other.
The four `USE ... none` lines at the end are keywords, so the last block ends there as well. An entity with a
negative number is never written, also if its number is given explicitly. `DUMP` with a set of numbers
that are not present writes nothing for them and does not warn.

For cells sent to another process (C131, C132; MPI build): `viscos_0` of a solution and `calc_DDL_viscosity`
of a surface are not serialized, so they are 1 and false in the receiver; descriptions are lost. Cells are
packed with `include_t = include_p = false` (PhreeqcRM.cpp:7950, 8934) and mixes and reactions are never
packed, but `DELETE; -cell` removes all of them from the sender: a reaction temperature or pressure of a
cell that moves exists nowhere afterwards (`mpi_temperature_violated`, proved for all contents and ranges;
the counterpart of C64 for threads). Every process goes through the entries of `transfer_pair` in the same
order, the order of the text `old#new`; the result does not depend on that order.

Processes of the MPI build (C133 to C136). The calls of the MPI library are modelled with the rules of the MPI
standard: collective calls take place when all processes are in the same one with matching types and
counts; a send may or may not be buffered. The proof finds one execution of every program of calls and shows
that all others end like it (steps of different processes commute). Violations:

* `SetPrintChemistryMask` broadcasts the method before it looks at the length of the vector
  (PhreeqcRM.cpp:12051-12061). With a short vector the root returns `IRM_INVALIDARG` and the workers
  stay in `MPI_Scatterv` (`mask_short_hangs`). `SetGeneric` does it in the right order.
* A process in which a transfer of cells fails throws alone; the common error handling is commented out
  (8057-8060, 9042-9045), and the others wait in `ScatterNchem` (`transfer_failure_hangs`).
* Cells are sent with ranks of `phreeqcrm_comm` in `MPI_COMM_WORLD` (7969-7987, 8953-8971); with a
  communicator in another order they go to the wrong process (`other_communicator_hangs`).
* `StateApply` restores the ranges of cells but not the values of the cells of a process
  (`apply_loses_cells`).
* MPI: `GetViscosity` broadcasts `METHOD_GETSOLUTIONVOLUME` (`PhreeqcRM.cpp:5363`; all other functions broadcast
  their own number): the workers send volumes of solutions, and the root returns them as viscosities of their cells
  (`readings_gathered`, `viscosity_is_volume`).
* `HandleErrorsInternal` gathers `r_vector[0]` only (5412): failures of InitialPhreeqc and Utility in
  `LoadDatabase`, `RunFile` and `RunString` give `IRM_OK` (`initial_failure_unseen`).

By reading only, same build: the constructor throws on the root alone if there are more processes than
cells, after the workers were told the method; `SetGasCompMoles` and `SetGasPhaseVolume` use
`GetWorkers()[n]` with the rank `n`, which is another instance for ranks 1 and 2 and out of bounds for
higher ranks; `SetConcentrations` and `SpeciesConcentrations2Module` do not look at the length of the vector;
`RunFile("")` in mode 0 goes on, with the old name in the workers; in mode 2 an error found only by the
root ends the root alone; `GetErrorString` puts no zero at the end of the received text; `RunCells` clears
`need_error_check` even if the check fails, and `CheckCells` prints the index in `missing`, not the cell.

### An IPhreeqc instance (`Verif/IPq`)

The reaction engine is a parameter: whatever it says (`Ev`) and however it ends (`Ending`).  Files are
not modelled, only strings; file switches are.  `WarningStringOn` and `output_on` never change.

* `RunAccumulated` left by an exception does not set `ClearAccumulated` (`lines_kept_after_exception`).
* A stopped run leaves text in the output, log and selected-output strings, with no lines
  (`no_lines_after_stop`).
* `AccumulateLine` and a successful `GetSelectedOutputValue` clear the error string, not the error lines
  (`old_error_lines`); a load that fails fills no error lines (`no_error_lines_after_load`).
* Warnings given while a database is read are lost when the load succeeds: `test_db` runs, and a run clears
  the warnings (`database_warning_lost`).
* A load that fails in its test run returns an error and leaves `DatabaseLoaded` true
  (`failed_load_is_loaded`).
* `UpdateComponents` is set only at the end of a run that was not stopped (`stale_components`).
* A load left by an exception leaves the error, output and log file switches off (`switches_lost`).
* `get_sel_out_string_on(n)` looks up the current user number instead of `n` (`wrong_switch`).
* A run left by an exception leaves a pointer to its destroyed input stream on `istream_list`; the next run
  reads it at the end of its own input (`undefined_after_exception`).

### From the text of an input to its lines (`Verif/Input`)

Characters below 128; the echo of lines and the text kept for loops are left out.  Files are a function
from names to texts; a file is read as it was when it was opened.

* A `#` behind a backslash begins no comment until the line is cut: a `;` in that comment splits the line,
  and what is behind it is read (`comment_behind_backslash_is_read`).
* A `;` behind a backslash and blanks does not separate (`semicolon_behind_backslash_is_text`).
* A file that includes itself is opened again and again, without end (`self_include_never_ends`).
* At the end of a text inside a comment, the last character is added twice to the line that is echoed; the
  line that is read is not changed.

### BASIC programs (`Verif/Pbasic`)

Doubles are rational numbers; `exp(y*log(x))` and the functions of one number are any functions.  A program
is a list of lines of tokens.

* `NOT` of a condition is -1 or -2, so `IF NOT c` is always taken (`not_of_condition`).  `NOT` rounds its
  operand, `AND`, `OR` and `XOR` cut it off.
* `x MOD y` adds `10^-14` to `x` first, so a multiple of `y` gives `10^-14` and not 0 (`mod_of_multiple`).
* A power of zero is zero, also `0^0` and `0^(-1)` (`zero_to_a_power`); `-2^2` is 4 (`sign_before_power`);
  a division by zero gives zero and a warning.
* `ON x GOSUB` with `x` outside its list leaves a call record behind; the `NEXT` or `WEND` of an enclosing
  loop is then an error (`on_gosub_leaves_a_call`).
* An undeclared array cannot be used with a comma inside parentheses inside a subscript
  (`nested_comma_at_first_use`).
* Read in the source, not modelled: `MID$` with a start behind the end of the text throws
  `std::out_of_range`, which no handler of `PBasicStop` catches (`PBasic.cpp:4984-5003`).
* Names are cut to 20 characters, so longer names that agree so far are one variable (`long_names_are_one`,
  `long_names_coincide`).
* A semicolon ends a line wherever it stands: in a string it makes the line an error, between items of
  `PUNCH` it cuts the statement, and what follows without a line number is carried out while the program is
  read (`semicolon_in_string`, `semicolon_between_items`, `semicolon_before_number`).
* The entry `"go to"` of the table of commands can never be found, because no word contains a blank
  (`go_to_not_found`).
* A `FOR` evaluates its limit after its variable has been assigned, and with step 0 and equal limits never
  ends.
* A `MIX` in a listed cell sees the solutions of cells with lower numbers after their reactions, so the result
  of a cell depends on which others are in the same RUN_CELLS (`mix_sees_treated_violation`).
* `run_cells_one_step` is set by RunCells of the reaction module (`PhreeqcRM.cpp:9720`, `9873`) and never reset:
  RUN_CELLS through RunString on workers makes all steps before the first RunCells and one step after
  (`steps_depend_on_history_violation`).
* The time after RUN_CELLS is advanced by what the last treated cell left: nothing if that cell has no kinetic
  reactants, the time of some earlier calculation if no listed cell exists (`time_advances_violation`).
* After a failing RUN_CELLS the list of cells stays defined (`ReadClass.cxx:845-848` is not reached), and the
  next input of the instance treats the same cells again (`failed_runs_again_violation`).
* Inside run_as_cells no entity in use is ever missing: neither the stops "not found" of `set_reaction` nor the
  null pointer at `ReadClass.cxx:797-798` can be reached (proved within `run_cells_refines`).
* Read in the source: messages name a stale `cell_no` for cells with a mix (`step.cpp:73` sets it only without).
* Consequence in the reaction module: when the last active cell of a worker fails in a time step, the list of
  cells of that worker's instance stays defined. The next RunCells begins with an input that has no RUN_CELLS
  (`PhreeqcRM.cpp:10267-10312`), which reacts that cell over the time step before; then it is reacted again. An
  error of that first input goes unnoticed (`< 0` at 10274 and 10306). This holds under mode 3, where
  the failed time step is reported as success, and under the other modes when the caller carries on
  (`failed_cell_reacts_twice_violation`).
* Charges of species go through `strtol` with base 0: `Th+010` has charge 8 (`octal_charge_violation`). A charge
  from 2^31 on wraps around, and for `H+4294967295` gives the name `H+` with charge -1
  (`large_charge_violation`).
* In a charge with a fraction the text behind the number is not looked at (`X+1.5.7`), and `X+1.5` and
  `X+1.50` are different species (`fraction_charge_violation`).
* A phase equation that consists of `=` alone is accepted by `parse_eq` with the elements of the species of the
  equation read before (`lone_equal_sign_violation`). Read in the source: `read_phases` then writes to
  `rxn.token[1]` of a list with one entry (`read.cpp:4182-4186`).
* `trxn_combine` drops merged terms of at most 1e-5 (`structures.cpp:2111-2172`): a reaction with small
  coefficients no longer balances (`small_term_violation`).
* `trxn_combine` on a reaction with one entry sets the count to two and revives what an earlier reaction left in
  entry 1, or reads outside the vector (`lone_species_violation`). A reaction that cancels entirely keeps
  one entry with coefficient zero, which may be a species that was to be replaced
  (`cancelled_species_violation`); `calc_alk` (`utilities.cpp:19-49`) then stops with an error.
* `MAX_ADD_EQUATIONS` counts single replacements, so a reaction with twenty species that are not master species
  is refused as a cycle (`twenty_species_violation`).
* `replace_solids_gases` is wrong when the phase that is replaced was defined with a leading coefficient other
  than one (`two_formula_units_violation`).
* A redox couple without an entry in `pe_x` is read from an empty vector (`prep.cpp:2676-2685`,
  `unknown_couple_violation`).
* Read in the source: `trxn_swap` writes behind the last entry; after `rewrite_master_to_secondary` there is
  always room (part of `couple_partial`), but callers ignore the return values of both functions (e.g.
  `print.cpp:439-440`). `write_mass_action_eqn_x` counts an input error even with CONTINUE, so the fallback
  "Using pe instead" of `tidy_redox` (`prep.cpp:5008-5019`) ends in termination at `prep.cpp:82`.
  `trxn_add_phase` does not set the dz of the diffuse layer.
* `rk_kinetics`: trials that end with a negative amount of an element jump back to `MOLES_TOO_LARGE` behind the
  test of `bad_step_max` and are not counted (`kinetics.cpp:396-404`), so that the loop need not end (`no_end`, in
  exact arithmetic; with doubles it goes on until the step underflows).
* With `-runge_kutta 2` solid solutions are set back to their state before the step after `saver` has stored the
  new one (`kinetics.cpp:678-682`): what went into them is lost (`order_two_solids`).
* The outcome of the first calculation (`kinetics.cpp:344`) is not looked at: if an element has a negative amount,
  the result of an earlier calculation, which may be that of another cell, is saved into the cell
  (`stale_result`). Neither is that of the last one (`kinetics.cpp:1087`).
* With order one, to which the stored options are changed whenever the rates were equal once, the rate at the end
  of the step is asked for with the time of its start: time-dependent rates are taken as constant
  (`order_one_time`, `order_one_late`); and if the rates differ, minerals and solid solutions are not set back
  before the second evaluation (`order_one_trial`).
* The test that lowers the order after a full step (`kinetics.cpp:1036-1037`) can never succeed, since equal rates
  never reach it. Read in the source: `-step_divide 0` and a tolerance of zero divide by zero.

Gathering the elements for a calculation (`Verif/Assemble`, C179-C184):

* With a negative fraction in a mixture, `add_mix` sets the weight `intensive` to zero, but passes on
  `intensive_water` (`step.cpp:674-686`), which is negative and refers to all water. Two liters less one liter of
  solutions at 25 degrees start at 0 degrees (`negative_fraction`). pH, pe and the other averages are wrong in the
  same way; temperature is not corrected afterwards.
* `pp_assemblage_check` sets `delta` of a mineral that was just used up to zero (`step.cpp:1383-1385`) if some
  element of the assemblage is missing: the initial moles printed and returned by EQUI_DELTA are then wrong by what
  it gave (`used_up_forgotten`). The amount is at most about 1e-10 moles, or more if the reaction took the element away.
* `ss_assemblage_check` counts the master species in the inner loop with the variable `k` of the outer loop
  (`step.cpp:1461`, `1503`): components after the first that lacks something are not tested
  (`later_component_forgotten`). With more components than master species the loop would not end.
* `delta_max` passes over an element that the totals of the system do not list (`absent_element_ignored`), and
  the totals do not count minerals with an alternative formula (`other_formula_ignored`).

Keeping the equations of the cell before (`Verif/Reuse`, C185-C187):

* `check_same_model` compares the names of solid solutions but not their components (`prep.cpp:5782-5799`). If a cell
  follows one whose solid solution has the same name and other components, the equations of the first are used with
  the amounts of the second (`other_components_kept`); with more components `quick_setup` uses a null pointer, with
  fewer an unknown of the first cell remains (`more_components_fault`). Which cells follow each other depends on the
  distribution of cells over workers, so results depend on the number of threads.
* A gas phase without components has an unknown (`prep.cpp:3229`), but the test takes it for no gas phase
  (`prep.cpp:5776`): a following cell without a gas phase is a null pointer (`empty_gas_fault`).
* `pr_in` of a gas phase and `force_numerical_fixed_volume` decide how a gas is treated, but are not compared: with
  `-numerical_fixed_volume` the vector `gas_unknowns` is read beyond its end (`other_gas_fault`).
* Read in the source: neither are the phases that surfaces are related to, nor `only_counter_ions`, compared.
* `RM_GetPorosity`, `RM_GetPressure`, `RM_GetTemperature` and `RM_GetViscosity` call the functions of the Fortran interface,
  which do not test for a null pointer (`null_fault`), and which on failure fill a local vector instead of the array
  (`RM_interface_F.cpp:1035-1039`, `stale_array`). `RM_GetPorosity` fails after `SetPorosity` was given a longer vector,
  which it accepts.
* Read in the source: `RM_interface_C.h:2684-2690` says that `RM_GetPorosity` gives 1e30 for inactive cells; it gives what
  was set.
* `GetSpeciesLog10Molalities` gives zero, the logarithm of one mole per kilogram of water, for a species that the solution of
  a cell does not have, and `GetSpeciesLog10Gammas` zero (`absent_is_one`).

The printout of a reaction step (`Verif/Print`, C194, C195):

* Only the print mask of the first grid cell of a reaction cell is read (`PhreeqcRM.cpp:10341-10350`): a grid cell with mask 1
  that is not the first of its reaction cell is not printed (`mask_of_first_only`).
* If the calculation of a cell fails that is not to be printed, printing is on, and the error handler mode is below 3, the line
  `GetOutputString: OutputStringOn not set.` is written to the output file (`PhreeqcRM.cpp:10383`, `stray_line`). The printout
  of a failing cell carries no heading, so that it cannot be told which cell it belongs to.
* Not modelled: the MPI branch, formatting of numbers (a parameter), the selected output written in the same loop.

Tables of the C interface (`Verif/CTables`, C196, C197):

* `RM_GetSelectedOutput` sizes a vector with the product of `GetSelectedOutputColumnCount` and the number of cells. Without a current
  selected output (also before the first `RM_RunCells`) the former is the error code -3, the product is negative, and
  `std::length_error` leaves the C function (`RM_interface_C.cpp:1693-1695`, `no_selected_output`); the class would have returned
  `IRM_FAIL`. `RMF_GetSelectedOutput` has the same lines (`RM_interface_F.cpp:1111-1113`, read in the source).
* `&v.front()` of an empty vector: gas tables without gas components, tables of species when species are not saved
  (`nothing_to_copy`), setters of tables without columns (`set_nothing`). Undefined; harmless with most libraries, an abort with
  checks enabled.
* Sizes are products of `int`: tables of 2^31 values or more overflow (`large_table`).
* `RM_GetBackwardMapping` does not test the pointer to the size (`size_null`), and does not tell the size needed.
* What the functions of the class yield is a parameter of this chapter; other chapters treat it.

Files of messages (`Verif/Files`, C198-C201):

* `OpenFiles` that opens the log file but not the output file returns `IRM_FAIL`, having emptied the log file, which stays open
  (`PhreeqcRM.cpp:7512-7524`, `half_open`).
* `SetFilePrefix("")` returns `IRM_INVALIDARG` after the prefix was changed (`PhreeqcRM.cpp:11796`, `empty_prefix_kept`); the next
  `OpenFiles` uses the names `.log.txt` and `.chem.txt`.
* `WarningMessage` also writes to the output file (PHRQ_io.cpp:269, `warning_in_output`); `PhreeqcRM.h:5615` names the screen and the
  log file. Warnings are switched by `SetErrorOn`, and errors and warnings by `SetScreenOn` as well (PHRQ_io.cpp:232-235, 257-262,
  `error_needs_screen`). `SetErrorOn(false)` does not keep errors out of the files.
* Read in the source: `PhreeqcRM.h:557` announces the text "Error: "; the code writes "ERROR: " (`PhreeqcRM.cpp:2786`).
* Not modelled: MPI, buffering and failing writes, a `PHRQ_io` supplied by the user, the switches of the workers, error handler
  modes 1 and 2.

Comparison of the selected output of the threads (`Verif/Agree`, C202):

* The loops that compare the workers run to `mpi_tasks` (`PhreeqcRM.cpp:932, 944, 961`), which is 1 without MPI (line 272): tables with
  different columns are accepted, and `GetSelectedOutput` then reads behind the end of a buffer (`mismatch_accepted`). With a bound of
  `nthreads` the check would be complete (`check_repaired`). Tables can differ: `USER_PUNCH` makes a heading for each value
  without one (PHRQ_io_output.cpp:139, 176; read in the source, not modelled).
* A selected output without columns has no row of headings, so that each worker counts as minus one row, and a debug build
  with two or more threads refuses every run (`no_columns_refused`).
* Lines 995-998 do not test whether a worker has the selected output: undefined behaviour, excluded by a hypothesis (`Defined`).
  The MPI branch is not modelled.

Boundary concentrations in C (`Verif/CBoundary`, C203):

* `RM_InitialPhreeqc2Concentrations` with `n_boundary` 0 takes `&v.front()` of an empty vector before the class can refuse the list
  (`RM_interface_C.cpp:2066-2067`, `no_entries`); with a negative number `std::length_error` leaves the function (`negative_entries`).

Initial conditions in C (`Verif/CInit`, C204-C206):

* `RM_InitialPhreeqc2Module` fills missing arrays with -1 and 1, so null pointers work (`Demo.nulls`), while the class leaves empty vectors
  undefined (`InitCond.initial_empty_violated`). `nxyz * 7` is a product of `int` and overflows for large grids (`initial_large`); the class has the same
  product in its size check, which `InitCond` takes as exact.
* `RM_InitialPhreeqcCell2Module` with an empty list takes `&v.front()` of an empty vector (`cell_none`); the class accepts the list.
* The C functions for one kind of reactant (`RM_InitialSolutions2Module`, ...) forward to the Fortran interface, which does not test the
  pointer: null is read (`one_null`), while the general call refuses it. Otherwise the two interfaces agree (`fortran_same`).
* `RM_InitialPhreeqc2SpeciesConcentrations` without entries: as for the concentrations (`species_none`).
* The lists of species made by `FindComponents` satisfy `Getters.GoodTable` after every history of calls (`Catalog.species_lists`). This was a
  hypothesis of the theorems on species (C115, C116, C206 and the getters); `Catalog.species_named` shows the getter with it discharged.
* `SINamesList` is filled by every call of `FindComponents` and cleared by none: after a second call each name is listed twice and `GetSICount`
  is doubled (`Catalog.si_repeated`, `Catalog.Demo.twice`), although the documentation (`PhreeqcRM.h:2214-2215`) says the names are unique.
  Selected output generated from the list as in the example of the documentation has duplicate columns.
* `GetSpeciesStoichiometrySWIG` does not clear three of the four lists it fills, unlike `GetBackwardMappingSWIG`: called twice with the same lists
  the counts no longer fit the names (`Python.stale_lists`). Python always passes new lists, so the dictionary is right
  (`Python.python_stoichiometry`).
* `set_value` of the Python class takes an array of one item, as every array of the grid is when there is one cell, for a number: the number is
  stored where the setter of the array does not look, so the setter gets what an earlier call left, whatever was passed
  (`Python.array_of_one_lost`, `swig/PhreeqcRM.i:892-893`).
* The same function divides by the item size, which for `FilePrefix` is the length of the prefix in force: once the prefix is empty it cannot be
  set from Python (`Python.prefix_stuck`, `swig/PhreeqcRM.i:889`).
* `RM_GetSpeciesZ` and `RM_GetSpeciesD25` take `front()` of the vector without a test, so that before `RM_FindComponents` has found species the call is
  undefined even though nothing is to be copied (`Catalog.column_fresh`, `RM_interface_C.cpp:1845` and `1943`).
* `CheckSelectedOutput` without MPI dereferences the result of `find` for every thread without a test: a thread that lacks the selected output makes
  the check undefined instead of failing (`Agree.missing_undefined`, `PhreeqcRM.cpp:993-998`). Found with a mutant that skipped such threads.
## Outcome per property

`partial` means that the code violates the full claim (the note says where) or that a stated
restriction is left; the theorems are in `MANIFEST.json`.

| id | claim | status | note |
|----|-------|--------|------|
| C01 | Fresh worker ranges partition the chemistry cells | proved |  |
| C02 | A successful mapping is a consistent pair of directions | proved |  |
| C03 | Which mappings CreateMapping accepts | proved |  |
| C04 | A rejected mapping leaves the module unchanged | partial | The code violates the property; the violation is proved with a witness, and the part that holds is proved. |
| C05 | Load rebalancing by worker keeps a partition | proved | Holds for fractions up to 1; false for larger accepted fractions, with a witness. |
| C06 | Load rebalancing by cell keeps a partition | partial | Holds for fractions in [1/2, 1]; false for 3/10, with a witness. |
| C07 | Moving cells between workers loses and duplicates nothing | proved | Kinds of reactant that make up a cell; REACTION, MIX and the like are covered by C64, switching partitioning off by C65. |
| C08 | Results do not depend on the number of workers | proved | Under the stated assumption that running a cell touches only that cell. |
| C09 | Unsaturated-zone partitioning conserves solids | proved | For every linear way of mixing entities, and for the mixing constructors of the code with one reaction formula per phase and one gas-phase type (both zones hold parts of the same reactant). |
| C10 | Unsaturated-zone split fractions are well defined | proved |  |
| C11 | Saturation drift is eventually repartitioned | partial | The code violates the property; witness and unbounded drift proved. A single large step does repartition. |
| C12 | SetConcentrations stores the right moles | proved | Concentrations2Solutions in both water modes, three units; amounts below 1e-25 mol stored as zero. |
| C13 | Element concentrations survive a set/get round trip | proved | Amounts zero or at least 1e-25 mol; the bound is shown needed. |
| C14 | Water, hydrogen and oxygen are conserved by a set/get round trip | proved |  |
| C15 | Each H2O, H and O entry is returned as it was set | partial | Violated by the code with water as a component (mass of water = oxygen/55.5); holds without water as a component, and always for charge. |
| C16 | Grid getters replicate symmetric cells and mark inactive cells | proved | Concentrations and the gas getters. The gas getters mark unmapped cells with the double 1e30, which differs from INACTIVE_CELL_VALUE (a float). |
| C17 | Scalar getters mark inactive cells whatever vector is passed | partial | Violated by the code when the caller passes a vector that already has entries; holds for an empty vector. |
| C18 | Saved states behave like a map of snapshots | partial | Refinement of a map of snapshots for every history in which updates leave every entity stored under its own number. SetGasCompMoles and SetGasPhaseVolume do not (see C81): gas phases they make are lost by StateSave. |
| C19 | StateApply restores the observable state | partial | Violated by the code for cached reads and for partitioned solids; a run after StateApply without partitioning gives the same result. |
| C20 | Component-wise setting is equivalent to setting all at once | partial | Equivalence and failure of incomplete sets proved; a RunCells that fails in its missing-solution check keeps the staged values, so the last clause is violated by the code there. |
| C21 | Component-wise reading agrees with reading all at once | partial | Violated by the code after SetConcentrations (cache not refreshed); holds directly after a run and on a first read. |
| C22 | A cell without a solution is never run | partial | Violated by the code from the second RunCells on (need_error_check cleared before the check). |
| C23 | The selected-output table is always rectangular | proved | Refinement of an abstract table; a row finished before any heading exists is not kept (see C24). |
| C24 | Blank rows keep their place | partial | Violated by the code while the table has no column; holds when the dummy run gives a column. |
| C25 | Selected-output rows survive serialisation | proved | For values holding C strings; receiving table may have unfinished empty values. |
| C26 | Selected output is returned column by column with correct owners | partial | Violated by the code when cells of one worker add columns; holds when no cell adds a column. Inactive grid cells keep stale values. |
| C27 | Component list grows monotonically in a fixed order | proved | For histories of calls with an unchanged H2O setting, failing calls included. That a repeated call changes no component is part of repeat_partial. |
| C28 | Changing the H2O setting keeps the component list well formed | partial | Violated: turning H2O off duplicates Charge, turning it on drops a component. Proved for turning it on while all elements are still defined. |
| C29 | Solid-solution names line up with component names | partial | Violated when a component known from an earlier call is listed before a new one, and when solid solutions share components. Proved for new components listed before known ones and for the first call with solid solutions that share nothing. |
| C30 | Initial-condition arrays are interpreted by fixed blocks | proved | A vector shorter than the grid is read past its end (Verif.InitCond.one_kind_short): the size is never checked. |
| C31 | Initial solution mixtures fill the pore volume | proved | Volume clause of the theorem; premises Ready (volume and water of the definitions positive, fractions in [0,1]). |
| C32 | Missing reactants are reported before anything changes | partial | The code violates both halves: the second KINETICS number is looked up among solid solutions (line 673), and a failing call keeps the cells already written. Proved: fails exactly when a referenced number is undefined or a porosity/volume is negative, provided second kinetics numbers are defined as solid solutions exactly when defined as kinetics; the undefined numbers are named; other workers and cells in error are untouched. |
| C33 | Gas component moles survive a set/get round trip | partial | Proved for gas phases that list no component twice (ignoring case) and, for the existence clause, up to components missing from the component list. Violated for a gas phase with one component under two spellings. |
| C34 | Error-handler modes | proved | Every history of the modelled setters; mode 3 accepted in OpenMP builds. A refused mode call returns its code in every mode and puts mode 0 in force. |
| C35 | Whole-grid setters validate their length first | proved | Includes the distribution of pressures and temperatures to the cells of the workers. |
| C36 | Unit setters reject unknown codes | proved | Every history. |
| C37 | Instance identifiers are never reused | proved | For histories with fewer than 2^31 constructions; id_wraps shows what happens at the limit of int. |
| C38 | Cleaning up BMI instances terminates | partial | Violated: with any living BMI instance CleanupBMIModuleInstances blocks on its own mutex. It returns only when there is none. DestroyAll (CleanupReactionModuleInstances) does return and empties the registry. |
| C39 | BMI item counts agree with name lists | proved | in every state reachable by any calls (also throwing ones); also the same list with or without the count first |
| C40 | BMI variables can be read, written and pointed to exactly as advertised | partial | proved for the typed overloads in every reachable state; violated by SetValue(void*) with an empty FilePrefix (division by zero), GetValuePtr(Components) (null, no exception) and SelectedOutputHeadings (readable but not listed before a selected output exists) |
| C41 | BMI time advances exactly | proved | for every history of calls with values of the right type; exact rational arithmetic |
| C42 | BMI reads work for one-cell grids | partial | vector overloads exact for every grid size; the void* overloads exact for more than one value and wrong for one |
| C43 | BMI pointers stay current and valid | partial | holds for every history in which FindComponents does not find more components after a pointer was given out; dangling pointer otherwise |
| C44 | Automatic output variables have distinct columns | partial | violated for names equal up to case (the earlier variable is hidden) and after a second generation with other options (stale names keep old columns); proved for all lists with names distinct up to case, with sufficient conditions on the input lists |
| C45 | YAML files replay the recorded calls | partial | Violated by recordings with YAMLLogMessage or YAMLSetNthSelectedOutput: InitializeYAML does not know these keywords and throws. Proved for all other recordings, including Clear and calls that end with exceptions. The text form of the file is trusted. |
| C46 | Name lists survive serialisation through the shared dictionary | proved | Any number of lists over one dictionary; the empty name is excluded and shown to break the round trip. |
| C47 | Combining redox states keeps element totals | proved | Names made of characters sorting after the parenthesis; shown necessary. |
| C48 | Replacing an element by a redox state affects only that element | partial | Violated by the code for names with a valence (substr(0, pos-1)); holds when merged names are plain element names. |
| C49 | Mixing reactants conserves moles | partial | Proved for exchangers, kinetics, solid solutions and surfaces. Violated for equilibrium phases that have different reaction formulas (the later part is dropped); proved when a phase has one formula. |
| C50 | Mixed solutions have averaged intensive properties | proved | Over rational numbers. Activity guesses are not modelled. |
| C51 | Weighted combination of named intensive values | partial | Violated by the code for names only in the first list. |
| C52 | Mixing surfaces conserves surface area | partial | Violated for different specific areas (the area grows). Proved: never less than the sum, equal exactly for equal specific areas; any number of parts with equal specific areas. |
| C53 | Mixing gas phases conserves gas moles | partial | Violated for gas phases of different types (all gas is lost). Proved for one type. |
| C54 | Copying and removing stored cells affects only those cells | proved |  |
| C55 | A dump contains every cell exactly once | partial | Violated for gas phases made by SetGasCompMoles/SetGasPhaseVolume (they carry number 1). Proved for all modules whose entities carry the number of their cell, all partitions, with and without partitioned solids, up to 21474836 cells. |
| C56 | A dump contains every kind of stored reactant | partial | Violated for pressures, which are neither dumped nor read; proved for the other ten kinds and numbers not negative. |
| C57 | Cell lists select exactly the given cells | partial | Proved for all lists of ints and ranges (either order, negative numbers) from their decimal text; ranges ending at the largest int overflow the loop counter, numbers outside int are C98. |
| C58 | Strings returned to Fortran callers are padded or reported as truncated | partial | Violated: in the C interface a text that exactly fills the buffer is reported as truncated; in the Fortran interface truncation is never reported. Everything else proved for all texts and lengths. |
| C59 | Cell packing for transfer between processes is lossless | partial | Violated: viscos_0, the DDL viscosity switch and z_gMCD_map are not packed, temperature and pressure definitions are not sent, a gas phase numbered otherwise than its cell arrives elsewhere, and packing empty cells is undefined. Proved that everything else arrives, for all cells. |
| C60 | Scatter and gather of grid arrays are inverse | partial | Violated: the further grid cells of a reaction cell get the value of its first one. Proved exactly what is returned, and the full statement for arrays equal on the grid cells of each reaction cell. |
| C61 | Kinetic time steps add up | partial | Violated: `-steps T in` without a number (or with 0) is accepted as zero increments, whose total is 0. Proved for every positive number of increments. |
| C62 | Run input goes to exactly the selected instances | partial | Violated: input after a NUL is silently not run, and instances that print from different OpenMP threads race for the output file. Proved for every other call, whatever PHREEQC does with the input. |
| C63 | Boundary solutions are mixed in the given proportions | partial | Proved for all lists of entries whose solutions exist with positive water, volume and density, fractions in [0,1] (positive without second solution). Violated: missing solutions are not reported, a fraction of 0 without second solution gives NaN, a MIX number above the last solution is taken for a negative number, mass fractions use a density weighted by water. |
| C64 | Definitions given to all workers follow a cell when it moves | partial | The code violates the property; witness proved. |
| C65 | Unsaturated-zone solids follow their cell | partial | The code violates the property when partitioning is off during rebalancing; holds while it is on. |
| C66 | Unsaturated-zone split depends only on the current saturation | proved |  |
| C67 | Density and saturation getters report a missing solution | partial | Violated by the code: the failure code is dropped. A missing solution shows only as an empty vector, and only for the saturation. |
| C68 | Pressure, temperature, volume and viscosity getters mark inactive cells | partial | Violated by the code where the module's vector was filled before; mapped cells are right. |
| C69 | Species getters return each species' own value | partial | Violated by the code for a species missing from the table (operator[] inserts 0); holds otherwise. |
| C70 | Reading concentrations is repeatable and changes no amounts | proved | Names with characters sorting after the parenthesis, as in C47. |
| C71 | Solid solutions that share components are merged into exclusive groups | proved |  |
| C72 | FindComponents can be repeated | partial | Violated for the saturation-index names, which are appended again. Proved for all other lists. |
| C73 | Surface and exchange species lists are aligned with their types and names | proved | The names-by-type part speaks of calls that succeed; equal lengths hold after failing calls too (findComponents_spec). |
| C74 | Name lists accumulate over FindComponents calls | proved |  |
| C75 | Species concentrations of mixed boundary solutions are averaged | partial | Violated for species that some part lacks. Proved for species in all parts. |
| C76 | Mixing keeps equal isotope ratios | partial | Ratios are violated for more than one part. Proved: moles of isotopes add up; a single part keeps its ratios. |
| C77 | Initial conditions give each cell the amounts defined | proved | Premises: definitions have volume and water, a phase has one reaction formula and gas phases one type (see C49, C53), fractions in [0,1], saturations not negative. |
| C78 | A failed call of InitialPhreeqc2Module has no later effect | partial | Violated: cells written to worker 0 by a failed call are distributed by the next successful one. What holds: when every worker holds only its own cells before the call, kinds with a negative number are as before. |
| C79 | Gas phase volumes survive a set/get round trip | proved | All cells and workers. |
| C80 | Writing back gas moles changes nothing | partial | Violated: a gas phase without components (made by SetGasPhaseVolume) is erased. Proved for gas phases with components. |
| C81 | Gas phases set by the user survive saving and applying a state | partial | Violated: new gas phases carry number 1 and overwrite each other in StateSave. Proved: numbers are right when no cell without a gas phase is given moles; then C18 applies. |
| C82 | Pressures and temperatures given by the user can be read back | proved | Every reaction cell has its solution. |
| C83 | The error string tells about the last call | proved | Every history of the modelled setters. SetDatabaseFileName (private) does not clear the string and is not modelled. |
| C84 | A refused setter call changes no setting | partial | Violated: refused SetErrorHandlerMode resets the mode to 0; SetFilePrefix("") stores the empty prefix; SetDumpFileName("") replaces the name. Proved for all other modelled setters. |
| C85 | Destroying a module by identifier is always defined | partial | Violated for modules not made with new; exact condition proved. |
| C86 | The registry of modules is safe to use from several threads | partial | Violated because Destroy searches without the lock; safe for creators and lookups only, and for one thread that creates and destroys while the others look up. |
| C87 | BMI calls are memory safe in every order | partial | safe once every variable has been set up (FindComponents or a query of names); SetValue(Porosity) before that writes past a buffer |
| C88 | String variables are read whole through GetValue(void*) | partial | FilePrefix whole; ErrorString is cut to, or read up to, the length it had when first used |
| C89 | Update does not advance the time past a failed run | partial | Update ignores the code of RunCells; holds when the error handler throws |
| C90 | SetValue reports a vector of the wrong size | partial | nothing is changed, but the call returns as if it had worked |
| C91 | Setters of the module show through BMI pointers | partial | holds while no BMI call has thrown; afterwards CurrentVar can suppress the update |
| C92 | Reading a listed automatic variable stays inside the table | partial | violated before the first RunCells, after RunCells with selected output off and after a second generation; proved after a run with selected output on when every listed name is generated again |
| C93 | A YAML file fixes the size of the module wherever the entries stand | partial | Proved for one record of each; with two records of the count GetGridCellCountYAML and Initialize disagree. |
| C94 | The order of the items of a YAML entry does not matter | partial | Violated: items are read by position and their names are ignored. |
| C95 | InitializeYAML reports failing calls | partial | Violated: return codes are ignored; whenever no exception is thrown the result is IRM_OK. |
| C96 | DumpModule is defined for every number of cells | partial | Violated: the progress message overflows int for more than 21474836 cells; proved that this is the exact limit. |
| C97 | A dump keeps every number | partial | Violated: 14 significant digits do not determine a double. Relative error at most 5e-14; numbers with up to 14 digits are exact. |
| C98 | Unreadable numbers in cell lists are rejected | partial | Violated: a word that cannot be read is dropped silently, and if it is the only one the list selects everything. |
| C99 | DELETE removes exactly what its lines ask for | partial | Violated: a line with numbers after -all (or after a line without numbers) narrows the selection. Proved for all definitions whose lines all have numbers. |
| C100 | Name functions of the C interface refuse every index outside the list | partial | Violated: 11 of 13 functions accept the number of names as index and read behind the vector; the three BMI name functions check nothing. All other indices proved. |
| C101 | Names returned to C callers are terminated | partial | Violated: strncpy leaves no NUL when the name has at least the buffer length; proved that this is the exact condition. |
| C102 | Fortran name lists hold every name in full | partial | Violated: for an empty list the returned status was never set; names longer than 2048 (1024) are cut silently. Proved for all other lists. |
| C103 | Prefix, error messages and input strings cross the language border in full | proved | For texts without NUL. |
| C104 | Moving cells to another process neither loses nor duplicates them | partial | Up to the members that are not packed (C59) and for cells whose reactants carry the number of the cell. |
| C105 | Scattering gathered values returns the values held by the processes | proved |  |
| C106 | Stepwise reaction amounts add up | proved |  |
| C107 | Running a cell advances its kinetics by exactly the time step | partial | Violated for the time step -98.7654321, which stands for undefined. Proved for every other one. |
| C108 | TOTAL_TIME in user programs is the time of the module | partial | Violated: TOTAL_TIME is 0 in cells without kinetics. Proved for cells with kinetics. |
| C109 | Temperature and pressure ramps start and end at the given values | proved |  |
| C110 | Time units convert consistently | proved |  |
| C111 | RunFile runs the file in the chosen instances | partial | Violated: the refusal of an empty name is ignored and the call reports success when no instance is chosen. Same conditions on NUL and printing as C62. |
| C112 | LoadDatabase loads every instance | partial | Without OpenMP. Violated: an exception from one load leaves the instances after it unloaded, and the choice of SetSpeciesSaveOn is lost in Utility. Proved for loads without exceptions. |
| C113 | The message about missing solutions names the cells that lack them | partial | Violated: the message prints the positions 0, 1, 2, ... in the list of missing cells, and their grid cells, instead of the missing cells. Proved: the run stops iff a cell lacks a solution, as many cells are listed as lack one, and the listing is in range. |
| C114 | Concentrations2Utility makes solutions with the concentrations given | partial | Violated: with water as component the water of a mass fraction is multiplied by the density of a grid cell with the number of the set (read past the end for more sets than grid cells); amounts without positive hydrogen and oxygen give pure water; before FindComponents there is a division by zero. Proved for all sets otherwise. |
| C115 | SpeciesConcentrations2Module stores the elements of the species | partial | Violated: a vector of the wrong size is read past its end. Proved for full vectors and plain element names. A total named H2O is stored, and dry cells are emptied. |
| C116 | InitialPhreeqc2SpeciesConcentrations gives the species of the boundary solutions | partial | Violated: a species in only one of two mixed solutions is not diluted, a species unknown to the module overwrites the first one, missing solutions give zeros. Proved for existing solutions with known species; the mean is weighted by water. |
| C117 | Formulas are read as written | partial | Violated: a coefficient behind a colon also multiplies the parts behind later colons; a colon inside parentheses takes the closing parenthesis (a later subscript is applied to the wrong group, or the formula is refused); a lone decimal point is the number 0; an opening bracket at the end is read past the end. Proved for all other formulas, and that everything accepted without colons in parentheses is a formula. |
| C118 | GetGfw gives the formula weight of every component | partial | Violated: an element without weight gives the weight 0 without an error; after a formula that cannot be read a variable that was never assigned is returned; a formula of 256 characters ends the program. Proved for readable formulas of weighed elements and any history. |
| C119 | InitialPhreeqcCell2Module copies a whole cell and nothing else | partial | Violated: reactants of kinds that cell n lacks are not removed; MIX is not used, refused without a solution of that number and not counted for a negative n; grid numbers are not checked; a grid cell that is not the first of its reaction cell is passed over. Proved: the amounts of every copied reactant, the rest kept, refusal of unknown numbers. |
| C120 | A caller can cycle through all selected outputs by sequence number | partial | Violated: the count is that of the tables of the last RunCells (0 before it and after a run with selected output off, stale after LoadDatabase) while the sequence numbers run over the definitions. Proved after RunCells with selected output on, through every later sequence of selections. |
| C121 | The selected output a caller selected stays selected | partial | Violated: RunCells with selected output on selects the definition with the largest number, LoadDatabase selects 1, and numbers without a definition are accepted. Proved for all other sequences of calls. |
| C122 | An exchange assemblage can be restarted from a dump file | partial | Violated: lanthanum on an exchanger is read as the option -la and lost; a component whose formula occurs in the totals of an earlier component is dropped; non-empty workspace totals stop the reader; new_def, solution_equilibria and the range end are not kept. Proved for all assemblages without these. |
| C123 | A solution can be restarted from a dump file | partial | Violated: a total whose name is the element of a valence state short of one character (F with Fe(2)) is lost without an error; isotopes are lost with eight or nine errors each. Proved exactly for all solutions: everything else is restored as printed. |
| C124 | A gas phase can be restarted from a dump file | partial | Violated: the line -p of a gas component is taken for the obsolete -phase_name, so every partial pressure is zero after a restart, without an error. Everything else is proved restored, for component names distinct ignoring case and totals without option words; the second dump is proved equal when the partial pressures were zero. |
| C125 | Reaction temperatures, pressures, reactions and mixtures can be restarted from a dump file | proved | For any number of values and any following text. |
| C126 | Kinetic reactants can be restarted from a dump file | proved | Only the workspace moles_of_reaction is not written. |
| C127 | Equilibrium phases can be restarted from a dump file | partial | Violated: silicon in the stored totals of a phase is read as the option -si and replaces the target saturation index without an error; dissolve_only is lost when precipitate_only is set as well; new_def is written as 0. Proved for assemblages whose lists hold no option word. |
| C128 | Solid solutions can be restarted from a dump file | partial | Violated: phosphorus in the stored totals of a solid solution is read as the option -p, which overwrites the parameters and reports errors. Proved for solid solutions whose totals hold no option word. |
| C129 | A surface can be restarted from a dump file | partial | Violated: the switch for a calculated viscosity of the diffuse layer is not written; lanthanum on a surface is read as the option -la, is lost and its amount replaces the log activity; non-empty workspace totals stop the reader. Proved for all surfaces without these, whose names differ ignoring case. |
| C130 | A whole dump file restarts everything that was asked for and nothing else | partial | Proved for all selections and contents whose selected entities meet the conditions of C122-C129 (no isotopes, no names that are options, no non-empty workspace totals). The second dump needs in addition the conditions of the redump theorems. The text after END is arbitrary. |
| C131 | Reactants of cells survive packing and unpacking | partial | Violated: viscos_0 of solutions and calc_DDL_viscosity of surfaces are not packed; they become 1 and false. Descriptions and the workspace map z_gMCD_map are not packed either. Proved for everything else, for all reactants whose names have no white space and which are filed under their own numbers. |
| C132 | MPI rebalancing moves every cell to its new owner and leaves no copy behind | partial | Proved for the seven kinds that are packed, up to the losses of C131. Violated: reaction temperatures and pressures of a cell that moves are deleted by the old owner and not packed. Mixes and reactions, which are not packed either, and the unsaturated-zone storage are not modelled. |
| C133 | In the MPI build every program of API calls ends, with all processes in step | partial | Proved for all sequences of 21 kinds of calls (45 methods of MpiWorker), all engines, all schedules and buffering. Violated: a print mask that is too short, a transfer of cells that fails in one process, and a communicator other than MPI_COMM_WORLD leave the processes waiting for ever. Not covered: exit mode (2), calls not modelled. |
| C134 | In the MPI build settings made on the root hold in every process | partial | Proved for all executions under the conditions of C133. |
| C135 | In the MPI build every process has the values that the user last set for its own cells | partial | Proved for all executions without StateApply. Violated: StateApply restores the ranges but does not distribute the values again. Pressure and temperature are not distributed after rebalancing and are excluded. |
| C136 | In the MPI build a failure in any process is reported on the root | partial | Proved for the worker instances of all processes. Violated: failures of InitialPhreeqc and Utility are not noticed, since only r_vector[0] is gathered. |
| C137 | RunAccumulated runs exactly the accumulated lines | partial | Proved for all sessions in which the runs of accumulated lines come back. Violated: a run left by an exception does not set ClearAccumulated, and the next line is added to lines already run. |
| C138 | Line getters of an instance show the lines of the string they go with | partial | Output, log and selected output: proved for all sessions whose last run or load returned 0. Errors and warnings: proved right behind a run that came back or a load that returned 0. Violated otherwise: a stopped run fills no lines; AccumulateLine and GetSelectedOutputValue clear the error string only; a failing load fills no error lines. |
| C139 | A run reports all and only what the engine said in it, and returns 0 only without errors | partial | Proved for every run that comes back, after all sessions without exceptions whose last load returned 0. Violated for loads: warnings about the database are cleared by the test run. |
| C140 | Nothing is run without a database, and everything is run with one | partial | Proved for all sessions whose last load returned 0, could not open its file, or does not exist. Violated: a load that fails in its test run leaves the database loaded. |
| C141 | GetComponent and GetComponentCount give the components of the current state | partial | Proved for all sessions whose last run did not fail. Violated: a stopped run does not mark the list as stale. |
| C142 | Every switch of an instance has the value it was given last | partial | Proved for all sessions in which the loads come back. Violated: a load left by an exception leaves three switches off. |
| C143 | The dump string holds what was dumped, and its lines show it | proved | Lines for all sessions; the text for every run that comes back. The engine decides when to dump, and what. |
| C144 | The string of each selected output is collected if, and only if, its switch is on | partial | Proved for numbers whose switch equals that of the current number. Violated otherwise: get_sel_out_string_on ignores its argument. |
| C145 | No sequence of calls to an instance reads an input stream that no longer exists | partial | Proved for all sessions without exceptions. Violated: after an exception the list of input streams holds a destroyed stream. |
| C146 | Every input text is split into the lines its rules describe | partial | Proved for all texts without '#' or ';' behind a backslash and blanks. Violated there: the comment is not recognised until its line is cut, so a ';' in it splits the line, and ';' does not separate. |
| C147 | An include line is replaced by the lines of the file it names | partial | Proved for all file systems and depths, texts as in C146; reading ends if no file includes itself. Violated: a file that includes itself is read forever. |
| C148 | Printed lines of words are read back as the same words | proved | All lines of words without blanks, '#', ';' and backslash that are not include lines. |
| C149 | A BASIC program consists of the lines last entered, in the order of their numbers | proved | All sequences of lines. |
| C150 | A BASIC expression has the value of its tree | proved | All expressions over numbers, texts, variables, array elements, signs, NOT, functions of one number and the fifteen operators. Doubles are rationals. |
| C151 | Conditions in BASIC combine as conditions | partial | Proved for AND, OR and XOR. Violated by NOT, which turns bits over: NOT of a condition is -1 or -2, never 0, so IF NOT c is always taken. |
| C152 | An assignment to an array element changes that element alone | proved | All arrays and subscripts. |
| C153 | A structured BASIC program does what its statements say | proved | All structured programs that end; the program may be followed by END and subroutines. |
| C154 | A FOR loop is executed as often as its limits say | proved | Doubles are rationals. |
| C155 | READ takes the items of DATA in the order of the program | proved | READ into simple variables. |
| C156 | GOTO and ON go to the line that is named | partial | Proved for ON GOTO, and for ON GOSUB with a number in the list. Violated otherwise: ON GOSUB outside its list leaves a call record behind, so the NEXT of an enclosing loop is an error. |
| C157 | An array used without DIM has subscripts 0 to 10 | partial | Proved for subscripts that contain no comma themselves. Violated: a comma inside parentheses inside a subscript is a syntax error at the first use. |
| C158 | A BASIC line is read as the tokens that it writes | partial | Proved for names of at most twenty characters. Violated for longer names: two names that agree in the first twenty characters are one variable. |
| C159 | A BASIC program is made of the lines of its text | partial | Proved for lines that contain no semicolon and for numbers that fit a long. Violated for a semicolon within a string or between items of PUNCH: the line is cut there. |
| C160 | The text of a structured BASIC program does what it says | proved | For the texts of C159 whose line numbers grow. |
| C161 | RUN_CELLS treats the cells of its list one after the other, from what they contain | proved | For mixes that do not name the working numbers -1 and -2. The chemistry of a step is a parameter, a function of the entities and times it is given. |
| C162 | The result of a cell in RUN_CELLS does not depend on the other cells | partial | Proved when no mix of a listed cell names a listed cell (splitting over calls with a given start time is proved without this). Violated otherwise: a mix in a later cell sees the solution that an earlier cell has after its reactions. |
| C163 | RUN_CELLS touches only the cells that it names | proved | Outside the working numbers -1 and -2. |
| C164 | The steps of a cell in RUN_CELLS | partial | Proved for a given value of run_cells_one_step. Violated for the last part: RunCells of the reaction module sets this switch in a worker and nothing resets it, so the same RUN_CELLS input makes all steps before and one step after. |
| C165 | RUN_CELLS advances the time by its time step | partial | Proved when the last treated cell has kinetic reactants. Violated when it has none (the time does not advance) and when no listed cell exists (the time of an earlier calculation is added). |
| C166 | A RUN_CELLS definition is carried out once | partial | Proved after a run that succeeds. Violated after a run that fails: the list stays in force and the next calculation without RUN_CELLS treats the same cells again. |
| C167 | A time step reacts every active cell exactly once | partial | Proved when the last active cell of the worker did not fail in the time step before. Violated otherwise: the input that RunCellsThread runs first, which has no RUN_CELLS, reacts that cell again over the old time step. |
| C168 | RunCells gives the same cells and rows for every division among workers | proved | For cells without MIX definitions, and workers with nothing left over from a failure (C167). |
| C169 | An accepted chemical equation balances | partial | For the equations of C170 with formulas of C117. For all lists of species check_iff says what is accepted in terms of what the reader of formulas finds. Violated for formulas that are misread (two colons). |
| C170 | A chemical equation is read as it is written | partial | Proved for charges that are whole numbers below 2^31 without leading zeros. Violated: leading zeros make a charge octal, larger charges change value and sign, text behind a fraction is ignored, a lone equal sign takes the species of the equation before. |
| C171 | Rewriting the reaction of a species to master species keeps it balanced | partial | Exact when all coefficients are multiples of one number above 1e-5; otherwise up to lost terms of at most 1e-5. Violated: merged terms of at most 1e-5 are dropped, an equation with one species picks up an entry of another reaction, a reaction that cancels brings a removed species back with coefficient zero, twenty species that are not master species are refused although there is no cycle. |
| C172 | Rewriting the reaction of a phase keeps it balanced | partial | As C171, for phases whose equations define one formula unit. Violated when a phase that is replaced has another leading coefficient. |
| C173 | Replacing inactive master species in a solution keeps reactions balanced | partial | Exact for whole numbers; otherwise up to lost terms. A couple without a reaction is undefined behaviour. The terms of surfaces (diffuse layer) are not modelled. |
| C174 | The reaction of a redox couple | partial | Up to lost terms as in C171; the primary master species is shown to cancel when it occurs once in each reaction. |
| C175 | The integration of kinetic rates covers the time step exactly | partial | Violated: trials in which an element gets a negative amount are not counted, so the limit for bad steps does not limit them and the integration need not end. Not modelled: CVODE, exchangers and surfaces related to a reactant, limit_rates. |
| C176 | Kinetic reactions make and lose nothing | partial | Proved if the first calculation has a result and the order is not two with solid solutions. Violated: order two sets solid solutions back after they were saved; a negative amount in the first calculation is not looked at and an old result is saved into the cell. |
| C177 | Kinetic rates that need no approximation are integrated exactly | partial | Rates of at most 1e-25 moles in the time step are taken as nothing. Violated with order one: rates that depend on the time are taken as constant. |
| C178 | Each internal step of the kinetics is a step of the Cash-Karp method within the tolerance | partial | Proved for every order but one. Violated with order one: the minerals are not set back before the second evaluation. |
| C179 | A reaction calculation starts from the sum of all parts of the cell | proved | Names in diffuse layers carry no redox state. Not modelled: isotopes, potV, state TRANSPORT. |
| C180 | A mass balance failure means that the cell cannot supply the element | proved | Compositions have no negative coefficients and the list of elements of an assemblage is complete. |
| C181 | Minerals give only what is missing, and what they gave is accounted for | partial | All proved but the account for minerals that are used up. Violated there: pp_assemblage_check sets their recorded change to zero. |
| C182 | A mixture starts from water-weighted averages | partial | Proved without negative fractions. Violated with one: the weight that is passed on is not the one that was set to zero. |
| C183 | Elements that a solid needs and that are absent are marked | partial | Proved for minerals. Violated for solid solutions: the inner loop counts with the variable of the outer one, so later components are passed over. |
| C184 | The limit for a component of a solid solution is what the system suffices for | partial | Proved if each element is listed. Violated otherwise: an absent element does not limit, and minerals with an alternative formula are not counted. |
| C185 | The equations of a cell do not depend on the cells calculated before | partial | Proved for cells without surface if cells that are taken for the same are alike in the components of solid solutions and in how a gas is treated. Violated otherwise: check_same_model compares only the names of solid solutions, a gas phase without components counts as none, and pr_in is not compared. |
| C186 | Each exchange site is counted once in a calculation | proved | All exchangers; an exchange site without a total gets the least amount. |
| C187 | The equations are kept exactly for cells with the same elements, gases, solid solutions and minerals | proved | Cells without surface, as step leaves them. |
| C188 | Values read on the root are those of the processes that have the cells | partial | Proved for all readings but the viscosity. GetViscosity asks the workers for the volume of the solution (wrong method number), so the viscosities of the cells of workers are volumes: proved violation. Missing as in C133. |
| C189 | A C program with arrays behaves as the C++ program with vectors | proved | Functions with one double or int per grid cell, build without MPI; RM_GetSaturationCalculated and arrays with several values per cell are not modelled. |
| C190 | RM_GetPorosity gives what RM_SetPorosity was given last | proved | Sequences of the modelled calls. |
| C191 | A getter of the C interface leaves no old values in the array | partial | Proved for all but the porosity. RM_GetPorosity fails after a longer vector was set by InitializeYAML or C++ and leaves the array as it was: proved violation. |
| C192 | A null pointer is refused | partial | Proved for the setters, RM_GetDensityCalculated and RM_GetSolutionVolume. RM_GetPorosity, RM_GetPressure, RM_GetTemperature and RM_GetViscosity use the null pointer: proved violation. |
| C193 | Logarithms of species that a cell does not have are not those of a species | partial | Proved for the species of the solution when all of them are in the table of the module. Species that the solution does not have are shown as zero, a molality of one: proved violation. |
| C194 | The printout of a reaction step has one section per cell to be printed | partial | Proved when all grid cells of a reaction cell agree on the mask. Only the mask of the first grid cell is read: proved violation. |
| C195 | The printout of a step that fails is kept up to the failing cell | partial | Proved when the failing cells are to be printed. A failing cell that is not to be printed writes a message of the engine to the output file: proved violation. |
| C196 | Tables of the C interface hold the values of the class | partial | Proved for tables that are not empty and whose size is an int. Empty tables and larger ones are undefined behaviour, and RM_GetSelectedOutput lets an exception escape when there is no selected output: proved violations. |
| C197 | Tables and mappings handed over in C arrive complete | partial | Proved for tables that are not empty and whose size is an int, and for a pointer to the size that is not null; the other cases are undefined behaviour: proved violations. |
| C198 | The log and output files hold the messages since they were opened | proved | Build without MPI, error handler mode 0. Warnings go to the output file too, which the documentation does not say. |
| C199 | No file changes while none is open | proved | Build without MPI, error handler mode 0. |
| C200 | A failing OpenFiles or SetFilePrefix has no effect on files | partial | Proved when the log file cannot be opened. If only the output file cannot be opened the log file is emptied and stays open, and an empty prefix is refused but kept: proved violations. |
| C201 | The screen shows what the switches say | proved | Build without MPI, error handler mode 0, not the Python build; messages of the workers are left out. |
| C202 | After a run the tables of the threads are checked to agree | partial | Proved that the number of rows is checked, for tables with columns that every thread has. Headings are not compared without MPI, and tables without columns are refused; a table that a thread lacks makes the check undefined: proved violations. check_compares and check_repaired say what the check does with another bound of its loops. |
| C203 | Boundary concentrations reach C callers complete and in place | partial | Proved for a positive number of entries and under the conditions of C63. No entries are undefined behaviour and a negative number lets an exception out of the C function: proved violations. |
| C204 | Initial conditions of C callers reach every cell | partial | Proved under the conditions of C32 and C77 for grids of up to INT_MAX / 7 cells; beyond that the product overflows (proved). Null arrays are handled, unlike empty vectors in the class. |
| C205 | Cells copied by C callers go to the listed grid cells only | partial | Proved for a positive number of cells under the conditions of C119. An empty list is undefined behaviour and a negative number lets an exception out of the C function: proved violations. |
| C206 | Boundary species reach C callers complete and in place | partial | Proved for a positive number of entries under the conditions of C116. No entries are undefined behaviour and a negative number lets an exception out: proved violations. |
| C207 | Numbers of one kind of reactant from C and Fortran reach every cell | partial | Proved for arrays that are not null; a null array is read (proved violation). |
| C208 | Initial conditions are the same from C and Fortran | proved | Arrays of Fortran are not null. Every outcome is covered, undefined behaviour included. |
| C209 | The lists of species belong together | proved | After every history of calls; which species are in the model of the solution is given. |
| C210 | Names of saturation indices are unique | partial | Proved for a single call that finds phases; violated by the code after a second call (proved). |
| C211 | Python gives the stoichiometry of each species | proved | For databases whose species have different names, after every history of calls. The function of the class alone appends to lists that are not empty (proved). |
| C212 | Python gives the backward mapping | proved | For every backward mapping; the order of insertion of the dictionary is not modelled. |
| C213 | Arrays and numbers set from Python arrive | partial | Violated for arrays with one item: the value passed has no effect (proved for every such variable and state). Proved for arrays with two or more items and for the numbers. |
| C214 | The file prefix can be set from Python | partial | Violated when the prefix in force is empty: division by zero, for every value passed. Proved otherwise. |
| C215 | Charges and diffusion coefficients of C callers | partial | Violated for modules in which no call of FindComponents got to the species: the address of the first entry of an empty vector is taken (proved). Proved for every history that found a species. |
