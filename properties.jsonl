{"id": "C01", "title": "Fresh worker ranges partition the chemistry cells", "statement": "After creating a module, or after CreateMapping succeeds, the ranges returned by GetStartCell/GetEndCell are consecutive, non-empty, start at 0, end at GetChemistryCellCount()-1, and any two ranges differ in length by at most one cell; hence every reaction cell is owned by exactly one worker.", "quantifier": "for every number of reaction cells and every number of workers not larger than it", "why_tests_cant": "the division-with-remainder arithmetic must be right for every (cells, workers) pair; a test samples a few pairs", "anchors": ["src/PhreeqcRM.cpp: PhreeqcRM::SetEndCells, PhreeqcRM::CreateMapping, PhreeqcRM::Construct"]}
{"id": "C02", "title": "A successful mapping is a consistent pair of directions", "statement": "When CreateMapping returns IRM_OK, GetBackwardMapping lists for each reaction cell exactly the grid cells mapped to it, in increasing order and never empty; GetForwardMapping sends the first of these back to the reaction cell and its further grid cells to -1, while grid cells that take no part keep the negative entry they were given; GetChemistryCellCount is one more than the largest entry.", "quantifier": "for every grid size and every mapping vector that is accepted", "why_tests_cant": "depends on every permutation, repetition pattern and negative entry of an unbounded vector", "anchors": ["src/PhreeqcRM.cpp: PhreeqcRM::CreateMapping, backward_mapping, forward_mapping_root"]}
{"id": "C03", "title": "Which mappings CreateMapping accepts", "statement": "CreateMapping returns IRM_OK exactly when the vector has one entry per grid cell, its non-negative entries are exactly the numbers 0..max with at least one present, and the number of workers does not exceed max+1.", "quantifier": "for every vector, grid size and worker count", "why_tests_cant": "an if-and-only-if over all vectors cannot be established by samples", "anchors": ["src/PhreeqcRM.cpp: PhreeqcRM::CreateMapping"]}
{"id": "C04", "title": "A rejected mapping leaves the module unchanged", "statement": "When CreateMapping returns an error the module keeps its previous mapping, count and worker ranges, so later calls behave as if the call had not been made.", "quantifier": "for every module state and every rejected vector", "why_tests_cant": "requires comparing the whole state for every failing input; tests seldom continue after a failure", "anchors": ["src/PhreeqcRM.cpp: PhreeqcRM::CreateMapping"]}
{"id": "C05", "title": "Load rebalancing by worker keeps a partition", "statement": "With SetRebalanceByCell(false) and a rebalance fraction in (0,1], after RunCells the worker ranges still partition the reaction cells into consecutive non-empty blocks, whatever the measured worker times.", "quantifier": "for every worker count, cell count, positive timing vector and fraction in (0,1]", "why_tests_cant": "timings are nondeterministic and unbounded; a bad combination corrupts ownership only rarely", "anchors": ["src/PhreeqcRM.cpp: PhreeqcRM::RebalanceLoad"]}
{"id": "C06", "title": "Load rebalancing by cell keeps a partition", "statement": "With SetRebalanceByCell(true), after RunCells the worker ranges still partition the reaction cells into consecutive non-empty blocks, whatever the measured per-cell times and whatever fraction in (0,1] the user chose.", "quantifier": "for every worker count, cell count, per-cell timing vector and fraction in (0,1]", "why_tests_cant": "timings are nondeterministic; the failing fractions and timings form a small corner", "anchors": ["src/PhreeqcRM.cpp: PhreeqcRM::RebalanceLoadPerCell, PhreeqcRM::SetRebalanceFraction"]}
{"id": "C07", "title": "Moving cells between workers loses and duplicates nothing", "statement": "When ranges change during rebalancing, every reaction cell's reactants are afterwards held by exactly the worker that owns the cell, with the same contents as before, and no other worker holds them.", "quantifier": "for every pair of old and new partitions and every cell contents", "why_tests_cant": "quantifies over every pair of partitions and all contents", "anchors": ["src/PhreeqcRM.cpp: PhreeqcRM::RebalanceLoad, PhreeqcRM::RebalanceLoadPerCell", "src/IPhreeqcPhast/IPhreeqc/phreeqcpp/StorageBin.cxx: cxxStorageBin::Copy, Remove"]}
{"id": "C08", "title": "Results do not depend on the number of workers", "statement": "If reacting one cell depends only on that cell's own contents, then the cell states after RunCells and the arrays returned by GetConcentrations-style getters are the same for every number of workers and every partition into worker ranges, and for every order in which workers are scheduled.", "quantifier": "for every partition of the cells, every cell-reaction function and every interleaving of workers", "why_tests_cant": "all interleavings and partitions cannot be enumerated", "anchors": ["src/PhreeqcRM.cpp: PhreeqcRM::RunCells, PhreeqcRM::RunCellsThread, PhreeqcRM::GetConcentrations"]}
{"id": "C09", "title": "Unsaturated-zone partitioning conserves solids", "statement": "With SetPartitionUZSolids on, for each cell the moles of each solid reactant in the saturated part plus the moles in the unsaturated part are unchanged by any sequence of saturation changes.", "quantifier": "for every finite history of saturations in [0,1] starting from the initial saturation and every initial amount", "why_tests_cant": "conservation must hold along every history, including repeated wetting, drying and exact boundary values", "anchors": ["src/PhreeqcRM.cpp: PhreeqcRM::PartitionUZ, PhreeqcRM::RunCellsThread"]}
{"id": "C10", "title": "Unsaturated-zone split fractions are well defined", "statement": "The fractions used to move solids never involve a division by zero, always lie in [0,1], and the saturated and unsaturated fractions of each source add to one, for all saturations; without partitioning errors for old saturation 0 or 1.", "quantifier": "for every old saturation in [0,1] and every new saturation", "why_tests_cant": "boundary values (0, 1, 1e-6, differences below 1e-8) interact; exhaustive reasoning needed", "anchors": ["src/PhreeqcRM.cpp: PhreeqcRM::PartitionUZ"]}
{"id": "C11", "title": "Saturation drift is eventually repartitioned", "statement": "If the saturation moves away from the value at the last repartitioning by more than the tolerance, the solids are repartitioned, no matter how slowly the drift happened.", "quantifier": "for every saturation history", "why_tests_cant": "needs long histories of tiny steps", "anchors": ["src/PhreeqcRM.cpp: PhreeqcRM::PartitionUZ, PhreeqcRM::RunCells"]}
{"id": "C12", "title": "SetConcentrations stores the right moles", "statement": "After SetConcentrations each wet cell's solution holds, for every component, concentration converted by the selected unit times representative volume, porosity and saturation, negative element amounts being replaced by zero; cells with non-positive saturation keep their solution unchanged.", "quantifier": "for every concentration array, unit setting, porosity, saturation, density, volume, and mapping", "why_tests_cant": "unit modes, symmetry and saturation combine over unbounded arrays", "anchors": ["src/PhreeqcRM.cpp: PhreeqcRM::SetConcentrations, Concentrations2Solutions, Concentrations2SolutionsH2O, Concentrations2SolutionsNoH2O", "src/IPhreeqcPhast/IPhreeqc/phreeqcpp/Solution.cxx: cxxSolution::Update"]}
{"id": "C13", "title": "Element concentrations survive a set/get round trip", "statement": "With UseSolutionDensityVolume(false), GetConcentrations directly after SetConcentrations returns for each active primary cell the same non-negative element concentrations that were set, in all three unit systems and with or without the H2O component.", "quantifier": "for every array of non-negative concentrations whose amounts are zero or at least 1e-25 mol, every unit system, positive porosity, saturation, density, volume", "why_tests_cant": "exact algebraic inverse over all real parameters; tests use tolerances and a few values", "anchors": ["src/PhreeqcRM.cpp: Concentrations2SolutionsH2O, Concentrations2SolutionsNoH2O, cxxSolution2concentrationH2O, cxxSolution2concentrationNoH2O"]}
{"id": "C14", "title": "Water, hydrogen and oxygen are conserved by a set/get round trip", "statement": "With H2O as a component, GetConcentrations directly after SetConcentrations returns H2O, H and O entries whose total hydrogen and total oxygen equal those that were set.", "quantifier": "for every concentration array and positive cell parameters", "why_tests_cant": "exact conservation over all inputs", "anchors": ["src/PhreeqcRM.cpp: Concentrations2SolutionsH2O, cxxSolution2concentrationH2O", "src/IPhreeqcPhast/IPhreeqc/phreeqcpp/Solution.cxx: cxxSolution::Update"]}
{"id": "C15", "title": "Each H2O, H and O entry is returned as it was set", "statement": "GetConcentrations directly after SetConcentrations returns the same H2O, H and O entries that were set.", "quantifier": "for every concentration array and positive cell parameters", "why_tests_cant": "needs exact arithmetic to separate a rounding difference from a systematic one", "anchors": ["src/PhreeqcRM.cpp: Concentrations2SolutionsH2O, cxxSolution2concentrationH2O", "src/IPhreeqcPhast/IPhreeqc/phreeqcpp/Solution.cxx: cxxSolution::Update"]}
{"id": "C16", "title": "Grid getters replicate symmetric cells and mark inactive cells", "statement": "GetConcentrations returns one value per component and grid cell; all grid cells mapped to one reaction cell get identical values taken from that reaction cell; every unmapped grid cell gets the inactive value.", "quantifier": "for every mapping, worker partition, component count and solution contents", "why_tests_cant": "unbounded arrays and mappings", "anchors": ["src/PhreeqcRM.cpp: PhreeqcRM::GetConcentrations, PhreeqcRM::GetGasCompMoles"]}
{"id": "C17", "title": "Scalar getters mark inactive cells whatever vector is passed", "statement": "GetDensityCalculated and GetSaturationCalculated return the inactive value for every unmapped grid cell, whatever the caller's vector contained before.", "quantifier": "for every mapping and every previous contents of the caller's vector", "why_tests_cant": "depends on the caller's previous vector, which tests leave empty", "anchors": ["src/PhreeqcRM.cpp: PhreeqcRM::GetDensityCalculated, PhreeqcRM::GetSaturationCalculated"]}
{"id": "C18", "title": "Saved states behave like a map of snapshots", "statement": "StateApply(i) brings back exactly the reactants that were present at the last StateSave(i); StateDelete(i) forgets it; StateApply and StateDelete on an id that is not saved return IRM_INVALIDARG and change nothing; operations on one id do not affect another.", "quantifier": "for every sequence of StateSave, StateApply, StateDelete and reactant updates", "why_tests_cant": "every history of operations", "anchors": ["src/PhreeqcRM.cpp: PhreeqcRM::StateSave, PhreeqcRM::StateApply, PhreeqcRM::StateDelete"]}
{"id": "C19", "title": "StateApply restores the observable state", "statement": "After StateApply(i) the values reported by GetIthConcentration and the following RunCells equal those after StateSave(i).", "quantifier": "for every history between save and apply", "why_tests_cant": "needs histories that change saturation, mapping, or cached results between save and apply", "anchors": ["src/PhreeqcRM.cpp: PhreeqcRM::StateApply, PhreeqcRM::GetIthConcentration, PhreeqcRM::PartitionUZ"]}
{"id": "C20", "title": "Component-wise setting is equivalent to setting all at once", "statement": "Calling SetIthConcentration once for every component, in any order and with repetitions (the last value wins), followed by RunCells is the same as SetConcentrations of the assembled array followed by RunCells; if a proper non-empty subset was set, RunCells fails; staged values never leak into a later RunCells.", "quantifier": "for every number of components and every sequence of SetIthConcentration calls", "why_tests_cant": "all orders and repetitions", "anchors": ["src/PhreeqcRM.cpp: PhreeqcRM::SetIthConcentration, PhreeqcRM::RunCells"]}
{"id": "C21", "title": "Component-wise reading agrees with reading all at once", "statement": "GetIthConcentration(i) equals the i-th slice of GetConcentrations.", "quantifier": "for every history of calls", "why_tests_cant": "depends on the history of cache refreshes", "anchors": ["src/PhreeqcRM.cpp: PhreeqcRM::GetIthConcentration, PhreeqcRM::GetConcentrations, PhreeqcRM::RunCells"]}
{"id": "C22", "title": "A cell without a solution is never run", "statement": "RunCells fails with an error as long as some reaction cell has no solution, no matter how often it is called.", "quantifier": "for every history of RunCells calls", "why_tests_cant": "needs a retry after a failing run", "anchors": ["src/PhreeqcRM.cpp: PhreeqcRM::RunCells, PhreeqcRM::CheckCells"]}
{"id": "C23", "title": "The selected-output table is always rectangular", "statement": "After each finished row all columns of the selected-output table have exactly as many entries as there are finished rows; a value is found at (row, heading) exactly when it was the last value given for that heading in that row, otherwise the cell is empty; out-of-range rows and columns are reported, never read.", "quantifier": "for every sequence of row and value operations", "why_tests_cant": "every sequence of pushes, new headings in late rows, blank rows", "anchors": ["src/IPhreeqcPhast/IPhreeqc/CSelectedOutput.cpp: CSelectedOutput::PushBack, EndRow, Get, GetRowCount"]}
{"id": "C24", "title": "Blank rows keep their place", "statement": "A cell that is not run contributes exactly one blank row, so row n of the table always belongs to the n-th cell.", "quantifier": "for every pattern of dry and wet cells", "why_tests_cant": "fails only when leading cells are dry", "anchors": ["src/IPhreeqcPhast/IPhreeqc/CSelectedOutput.cpp: CSelectedOutput::EndRow", "src/PhreeqcRM.cpp: PhreeqcRM::RunCellsThread"]}
{"id": "C25", "title": "Selected-output rows survive serialisation", "statement": "Sending a selected-output row through Serialize and DeSerialize reproduces the same typed values under the same headings.", "quantifier": "for every row of values of any type and any number of columns", "why_tests_cant": "all type sequences and string lengths", "anchors": ["src/IPhreeqcPhast/IPhreeqc/CSelectedOutput.cpp: CSelectedOutput::Serialize, DeSerialize"]}
{"id": "C26", "title": "Selected output is returned column by column with correct owners", "statement": "GetSelectedOutput places the value that reaction cell n produced in column j at position j*nxyz+i for every grid cell i mapped to n, whatever the partition into workers.", "quantifier": "for every mapping, partition, column count and table contents", "why_tests_cant": "unbounded sizes and partitions", "anchors": ["src/PhreeqcRM.cpp: PhreeqcRM::GetSelectedOutput", "src/IPhreeqcPhast/IPhreeqc/CSelectedOutput.cpp: CSelectedOutput::Doublize"]}
{"id": "C27", "title": "Component list grows monotonically in a fixed order", "statement": "FindComponents keeps every component found earlier, lists H2O (if enabled), H, O, Charge first and the remaining elements in strictly increasing order without repetition; calling it again without new definitions changes nothing.", "quantifier": "for every sequence of FindComponents calls with any sets of elements, with an unchanged H2O setting", "why_tests_cant": "every history of calls and element sets", "anchors": ["src/PhreeqcRM.cpp: PhreeqcRM::FindComponents"]}
{"id": "C28", "title": "Changing the H2O setting keeps the component list well formed", "statement": "After SetComponentH2O changes between FindComponents calls, the component list still contains every element exactly once.", "quantifier": "for every history of SetComponentH2O and FindComponents", "why_tests_cant": "needs a toggle between two calls", "anchors": ["src/PhreeqcRM.cpp: PhreeqcRM::SetComponentH2O, PhreeqcRM::FindComponents"]}
{"id": "C29", "title": "Solid-solution names line up with component names", "statement": "GetSolidSolutionNames()[i] is the solid solution that contains GetSolidSolutionComponents()[i].", "quantifier": "for every list of solid solutions", "why_tests_cant": "needs overlapping component lists", "anchors": ["src/PhreeqcRM.cpp: PhreeqcRM::FindComponents"]}
{"id": "C30", "title": "Initial-condition arrays are interpreted by fixed blocks", "statement": "InitialSolutions2Module, ..., InitialKinetics2Module with a vector v give every cell the same reactants as InitialPhreeqc2Module with the array that has v in that reactant's block and -1 elsewhere, and leave other kinds untouched.", "quantifier": "for every grid size and vector", "why_tests_cant": "unbounded sizes; seven blocks", "anchors": ["src/PhreeqcRM.cpp: PhreeqcRM::InitialSolutions2Module, ..., InitialPhreeqc2Module, CellInitialize"]}
{"id": "C31", "title": "Initial solution mixtures fill the pore volume", "statement": "When a cell's initial solution is a mixture of two solutions with positive volumes, the resulting solution volume is exactly representative volume times porosity times saturation.", "quantifier": "for every fraction and positive volumes", "why_tests_cant": "exact algebra over all reals", "anchors": ["src/PhreeqcRM.cpp: PhreeqcRM::CellInitialize", "src/IPhreeqcPhast/IPhreeqc/phreeqcpp/Solution.cxx: cxxSolution::cxxSolution(solutions, mix)"]}
{"id": "C32", "title": "Missing reactants are reported before anything changes", "statement": "InitialPhreeqc2Module fails exactly when a referenced reactant number is undefined, and a failing call leaves all cells as they were.", "quantifier": "for every set of definitions and arrays", "why_tests_cant": "all combinations of existing and missing numbers across seven kinds", "anchors": ["src/PhreeqcRM.cpp: PhreeqcRM::InitialPhreeqc2Module, PhreeqcRM::CellInitialize"]}
{"id": "C33", "title": "Gas component moles survive a set/get round trip", "statement": "After SetGasCompMoles, GetGasCompMoles returns each non-negative value set and -1 for each component given as negative, in every active cell; the gas phase exists exactly when some value is non-negative.", "quantifier": "for every list of components, every array and every previous gas phase", "why_tests_cant": "creation, update, deletion and mixed cases over unbounded lists", "anchors": ["src/PhreeqcRM.cpp: PhreeqcRM::SetGasCompMoles, GetGasCompMoles", "src/IPhreeqcPhast/IPhreeqc/phreeqcpp/GasPhase.cxx: cxxGasPhase::Set_component_moles, Get_component_moles, Delete_component"]}
{"id": "C34", "title": "Error-handler modes", "statement": "SetErrorHandlerMode accepts exactly the documented modes; with mode 0 a failing call returns its code, with mode 1 it throws, with mode 2 it exits; a successful call never throws or exits.", "quantifier": "for every integer mode and every result", "why_tests_cant": "all integers and codes; includes behaviour after a rejected mode", "anchors": ["src/PhreeqcRM.cpp: PhreeqcRM::SetErrorHandlerMode, ReturnHandler"]}
{"id": "C35", "title": "Whole-grid setters validate their length first", "statement": "SetPorosity, SetSaturationUser, SetDensityUser and similar setters accept a vector iff it has at least one value per grid cell; a rejected vector changes nothing; an accepted one is what later calculations use for each cell.", "quantifier": "for every vector length and contents", "why_tests_cant": "all lengths", "anchors": ["src/PhreeqcRM.cpp: PhreeqcRM::SetGeneric and its callers"]}
{"id": "C36", "title": "Unit setters reject unknown codes", "statement": "SetUnitsSolution accepts exactly 1,2,3 and the six solid-unit setters accept exactly 0,1,2; a rejected value leaves the setting unchanged; so the unit code always indexes a defined conversion.", "quantifier": "for every sequence of calls with any integers", "why_tests_cant": "every history", "anchors": ["src/PhreeqcRM.cpp: PhreeqcRM::SetUnitsSolution, SetUnitsExchange, ..., CellInitialize porosity_factor"]}
{"id": "C37", "title": "Instance identifiers are never reused", "statement": "Every created module gets an identifier different from all previously issued ones; DestroyReactionModule succeeds exactly once per identifier and never affects another module; unknown or negative identifiers are reported as bad instances.", "quantifier": "for every history of create, destroy and use", "why_tests_cant": "every history", "anchors": ["src/PhreeqcRM.h: StaticIndexer", "src/PhreeqcRM.cpp: CreateReactionModule, DestroyReactionModule"]}
{"id": "C38", "title": "Cleaning up BMI instances terminates", "statement": "CleanupBMIModuleInstances returns after deleting all BMI instances.", "quantifier": "for every number of live instances", "why_tests_cant": "a self-deadlock shows only as a hang", "anchors": ["src/BMIPhreeqcRM.cpp: BMIPhreeqcRM::CleanupBMIModuleInstances", "src/PhreeqcRM.h: StaticIndexer::~StaticIndexer"]}
{"id": "C39", "title": "BMI item counts agree with name lists", "statement": "GetInputItemCount, GetOutputItemCount and GetPointableItemCount equal the lengths of the corresponding name lists in every state.", "quantifier": "for every set of auto output variables", "why_tests_cant": "depends on every possible configuration", "anchors": ["src/BMIPhreeqcRM.cpp: GetInputItemCount, GetInputVarNames, GetOutputItemCount, GetOutputVarNames, GetPointableItemCount, GetPointableVarNames"]}
{"id": "C40", "title": "BMI variables can be read, written and pointed to exactly as advertised", "statement": "SetValue works exactly for the names listed by GetInputVarNames, GetValue exactly for those in GetOutputVarNames, GetValuePtr exactly for those in GetPointableVarNames.", "quantifier": "for every variable name", "why_tests_cant": "26 variables times 3 operations times case variants", "anchors": ["src/VarManager.cpp: VarManager::*_Var", "src/BMIPhreeqcRM.cpp: SetValue, GetValue, GetValuePtr"]}
{"id": "C41", "title": "BMI time advances exactly", "statement": "Update advances GetCurrentTime by GetTimeStep; UpdateUntil(t) with t not in the past ends at exactly t; UpdateUntil never moves time backwards; GetEndTime is one step ahead.", "quantifier": "for every history of time operations", "why_tests_cant": "every history", "anchors": ["src/BMIPhreeqcRM.cpp: Update, UpdateUntil, GetCurrentTime, GetEndTime"]}
{"id": "C42", "title": "BMI reads work for one-cell grids", "statement": "GetValue and SetValue transfer the grid value for every grid size, including one cell.", "quantifier": "for every grid size", "why_tests_cant": "tests use grids with more than one cell", "anchors": ["src/BMIPhreeqcRM.cpp: GetValue(std::string, void*), SetValue(std::string, void*)"]}
{"id": "C43", "title": "BMI pointers stay current and valid", "statement": "A pointer obtained from GetValuePtr refers to live memory and shows the current value after every Update.", "quantifier": "for every history of GetValuePtr, FindComponents, Update, SetValue", "why_tests_cant": "reallocation and stale buffers depend on the order of calls", "anchors": ["src/BMIPhreeqcRM.cpp: GetValuePtr, UpdateVariables", "src/VarManager.cpp: VarManager::RM2BMIUpdate, PointerSet, UpdateSet"]}
{"id": "C44", "title": "Automatic output variables have distinct columns", "statement": "Each automatic BMI output variable has its own column, the columns are 0..n-1 in heading order, and looking a variable up by name gives the column that computes it.", "quantifier": "for every list of headings", "why_tests_cant": "every list of names, including names equal up to case", "anchors": ["src/VarManager.cpp: VarManager::GenerateAutoOutputVars", "src/BMIPhreeqcRM.cpp: GetValue"]}
{"id": "C45", "title": "YAML files replay the recorded calls", "statement": "Writing calls with YAMLPhreeqcRM and reading the file with InitializeYAML performs the same calls with the same arguments in the same order.", "quantifier": "for every sequence of supported calls", "why_tests_cant": "about 60 kinds of call in any order", "anchors": ["src/YAMLPhreeqcRM.cpp", "src/PhreeqcRM.cpp: PhreeqcRM::InitializeYAML"]}
{"id": "C46", "title": "Name lists survive serialisation through the shared dictionary", "statement": "Serialising any sequence of name/value lists with a shared dictionary, sending the dictionary as text, and reading everything back gives the same lists.", "quantifier": "for every list of names (without line breaks, shorter than the line buffer) and values", "why_tests_cant": "unbounded name lists and dictionary sharing", "anchors": ["src/IPhreeqcPhast/IPhreeqc/phreeqcpp/NameDouble.cxx: Serialize, Deserialize", "src/IPhreeqcPhast/IPhreeqc/phreeqcpp/Dictionary.cpp"]}
{"id": "C47", "title": "Combining redox states keeps element totals", "statement": "Reducing totals given per valence state (for example Fe(2), Fe(3)) to totals per element keeps each element's total, omitting only H, O and Charge.", "quantifier": "for every list of totals named by elements and valence states", "why_tests_cant": "every set of names, including prefixes of each other", "anchors": ["src/IPhreeqcPhast/IPhreeqc/phreeqcpp/NameDouble.cxx: Simplify_redox, Get_total_element"]}
{"id": "C48", "title": "Replacing an element by a redox state affects only that element", "statement": "Merging new values keyed by valence state replaces the entry of the same element and leaves all other elements alone.", "quantifier": "for every pair of lists", "why_tests_cant": "needs elements whose names are prefixes of each other", "anchors": ["src/IPhreeqcPhast/IPhreeqc/phreeqcpp/NameDouble.cxx: merge_redox"]}
{"id": "C49", "title": "Mixing reactants conserves moles", "statement": "The amount of each component in a mixture of exchangers, equilibrium phases, kinetic reactants, solid solutions or surfaces is the sum of the amounts in the parts times their mixing fractions.", "quantifier": "for every list of parts, fractions and components", "why_tests_cant": "every combination of shared and unshared components", "anchors": ["src/IPhreeqcPhast/IPhreeqc/phreeqcpp/Exchange.cxx: add", "PPassemblage.cxx: add", "cxxKinetics.cxx: add", "SS.cxx: add", "Surface.cxx: add", "NameDouble.cxx: add_extensive, multiply"]}
{"id": "C50", "title": "Mixed solutions have averaged intensive properties", "statement": "When solutions with positive water masses are mixed with positive factors, extensive properties add up, and temperature, pH, pe, ionic strength and density of the mixture lie between the smallest and the largest of the parts and do not depend on the order of mixing.", "quantifier": "for every list of solutions and positive factors", "why_tests_cant": "every list and order", "anchors": ["src/IPhreeqcPhast/IPhreeqc/phreeqcpp/Solution.cxx: cxxSolution::add"]}
{"id": "C51", "title": "Weighted combination of named intensive values", "statement": "Combining two lists of named intensive values with weights f1 and f2 gives f1*a+f2*b for every name, a missing entry counting as zero.", "quantifier": "for every pair of lists and weights", "why_tests_cant": "names present on one side only", "anchors": ["src/IPhreeqcPhast/IPhreeqc/phreeqcpp/NameDouble.cxx: add_intensive"]}
{"id": "C52", "title": "Mixing surfaces conserves surface area", "statement": "The total area (specific area times grams) of a mixed surface is the sum of the areas of the parts times their fractions.", "quantifier": "for every pair of surfaces and positive fraction", "why_tests_cant": "needs different specific areas and exact arithmetic", "anchors": ["src/IPhreeqcPhast/IPhreeqc/phreeqcpp/SurfaceCharge.cxx: cxxSurfaceCharge::add"]}
{"id": "C53", "title": "Mixing gas phases conserves gas moles", "statement": "The moles of each gas in a mixture of gas phases are the sum of the moles in the parts times their fractions.", "quantifier": "for every list of gas phases", "why_tests_cant": "includes gas phases of different type", "anchors": ["src/IPhreeqcPhast/IPhreeqc/phreeqcpp/GasPhase.cxx: cxxGasPhase::cxxGasPhase(entity_map, mix)"]}
{"id": "C54", "title": "Copying and removing stored cells affects only those cells", "statement": "Copying cell s to d makes d identical to s for all kinds of reactant (absent kinds become absent) and changes no other cell; removing d removes all its kinds and changes no other cell.", "quantifier": "for every storage contents and cell numbers", "why_tests_cant": "every contents", "anchors": ["src/IPhreeqcPhast/IPhreeqc/phreeqcpp/StorageBin.cxx: Copy, Remove, Add"]}
{"id": "C55", "title": "A dump contains every cell exactly once", "statement": "DumpModule writes each reaction cell's reactants exactly once, and the file is the concatenation of the pieces whatever their size.", "quantifier": "for every partition into workers, block size and text", "why_tests_cant": "block boundaries at every size", "anchors": ["src/PhreeqcRM.cpp: PhreeqcRM::DumpModule"]}
{"id": "C56", "title": "A dump contains every kind of stored reactant", "statement": "Dumping a storage bin and reading it back reproduces all reactants including reaction temperatures and pressures.", "quantifier": "for every contents", "why_tests_cant": "depends on all kinds of reactant", "anchors": ["src/IPhreeqcPhast/IPhreeqc/phreeqcpp/StorageBin.cxx: dump_raw, dump_raw_range, read_raw"]}
{"id": "C57", "title": "Cell lists select exactly the given cells", "statement": "A list of cell numbers and ranges such as '1 3-5 7' selects exactly those numbers; an empty list selects all.", "quantifier": "for every list of numbers and ranges", "why_tests_cant": "all lists", "anchors": ["src/IPhreeqcPhast/IPhreeqc/phreeqcpp/StorageBinList.cpp: StorageBinListItem::Augment"]}
{"id": "C58", "title": "Strings returned to Fortran callers are padded or reported as truncated", "statement": "A string is returned unchanged and padded when it fits the caller's buffer; a truncation is reported exactly when characters are lost.", "quantifier": "for every string and buffer length", "why_tests_cant": "exact-fit boundary", "anchors": ["src/BMI_interface_C.cpp: rmpadfstring", "src/RM_interface_C.cpp: rmpadfstring"]}
{"id": "C59", "title": "Cell packing for transfer between processes is lossless", "statement": "Packing any set of cells with all their reactants and unpacking them in another process gives the same reactants.", "quantifier": "for every set of cells and contents", "why_tests_cant": "every combination of kinds and unbounded lists", "anchors": ["src/IPhreeqcPhast/IPhreeqc/phreeqcpp/Serializer.cxx", "Solution.cxx: Serialize, Deserialize", "PPassemblage.cxx", "Exchange.cxx", "GasPhase.cxx", "cxxKinetics.cxx", "SSassemblage.cxx", "Surface.cxx"]}
{"id": "C60", "title": "Scatter and gather of grid arrays are inverse", "statement": "Gathering the per-process parts of a scattered cell array gives the original array.", "quantifier": "for every number of processes and partition", "why_tests_cant": "every partition", "anchors": ["src/PhreeqcRM.cpp: PhreeqcRM::ScatterNchem, PhreeqcRM::GatherNchem"]}
{"id": "C61", "title": "Kinetic time steps add up", "statement": "With equal increments the incremental reaction steps of a kinetics definition add up to the total time, and cumulative steps end at the total time.", "quantifier": "for every number of steps and total time", "why_tests_cant": "all counts", "anchors": ["src/IPhreeqcPhast/IPhreeqc/phreeqcpp/cxxKinetics.cxx: Current_step"]}
{"id": "C62", "title": "Run input goes to exactly the selected instances", "statement": "RunString(workers, initial, utility, s) runs s in each worker instance iff workers is set, in the initial instance iff initial is set and in the utility instance iff utility is set, and reports failure iff one of these runs fails.", "quantifier": "for every flag combination, worker count and run outcome", "why_tests_cant": "all outcomes of all instances", "anchors": ["src/PhreeqcRM.cpp: PhreeqcRM::RunString, PhreeqcRM::RunFile"]}
{"id": "C63", "title": "Boundary solutions are mixed in the given proportions", "statement": "InitialPhreeqc2Concentrations returns for each boundary entry the mix of the two given solutions with fractions f1 and 1-f1, using the first alone when no second is given.", "quantifier": "for every number of boundary entries, fractions and solutions", "why_tests_cant": "unbounded lists, all fraction cases", "anchors": ["src/PhreeqcRM.cpp: PhreeqcRM::InitialPhreeqc2Concentrations"]}
{"id": "C64", "title": "Definitions given to all workers follow a cell when it moves", "statement": "A REACTION, MIX, REACTION_TEMPERATURE or REACTION_PRESSURE with the number of a reaction cell, defined in all workers with RunString, is still available to the worker that owns the cell after any number of load rebalancings.", "quantifier": "for every sequence of partitions into worker ranges", "why_tests_cant": "needs a cell that moves away and back, which depends on measured times", "anchors": ["src/PhreeqcRM.cpp: PhreeqcRM::RebalanceLoad, PhreeqcRM::RebalanceLoadPerCell", "src/IPhreeqcPhast/IPhreeqc/phreeqcpp/structures.cpp: phreeqc2cxxStorageBin, cxxStorageBin2phreeqc"]}
{"id": "C65", "title": "Unsaturated-zone solids follow their cell", "statement": "Switching SetPartitionUZSolids off, running with rebalancing, and switching it on again does not separate the unsaturated-zone solids of a cell from the worker that owns the cell.", "quantifier": "for every pair of old and new partitions", "why_tests_cant": "needs a particular order of rarely combined calls and a measured imbalance", "anchors": ["src/PhreeqcRM.cpp: PhreeqcRM::SetPartitionUZSolids, PhreeqcRM::RebalanceLoad, PhreeqcRM::RebalanceLoadPerCell"]}
{"id": "C66", "title": "Unsaturated-zone split depends only on the current saturation", "statement": "As long as no reactions happen, the saturated zone of a cell holds the fraction of the solids given by the current saturation (0, or more than 1e-6), whatever the previous saturations.", "quantifier": "for every old and new saturation that differ by the tolerance or more, and every amount", "why_tests_cant": "a relation between real-valued histories", "anchors": ["src/PhreeqcRM.cpp: PhreeqcRM::PartitionUZ"]}
{"id": "C67", "title": "Density and saturation getters report a missing solution", "statement": "GetDensityCalculated and GetSaturationCalculated return a result code other than IRM_OK when a reaction cell has no solution.", "quantifier": "for every mapping, partition and set of solutions with at least one missing", "why_tests_cant": "tests define a solution in every cell", "anchors": ["src/PhreeqcRM.cpp: PhreeqcRM::GetDensityCalculated, PhreeqcRM::GetSaturationCalculated"]}
{"id": "C68", "title": "Pressure, temperature, volume and viscosity getters mark inactive cells", "statement": "GetPressure, GetTemperature, GetSolutionVolume and GetViscosity return the reaction cell's value in each grid cell mapped to it and the inactive value in every unmapped grid cell.", "quantifier": "for every mapping, partition, set of solutions and previously set arrays", "why_tests_cant": "unbounded mappings; depends on the module's earlier array", "anchors": ["src/PhreeqcRM.cpp: PhreeqcRM::GetPressure, PhreeqcRM::GetTemperature, PhreeqcRM::GetSolutionVolume, PhreeqcRM::GetViscosity"]}
{"id": "C69", "title": "Species getters return each species' own value", "statement": "GetSpeciesConcentrations, GetSpeciesLog10Gammas and GetSpeciesLog10Molalities return for each species name the value of that species in the cell's solution, zero where the solution does not contain it.", "quantifier": "for every species list, solution contents and mapping", "why_tests_cant": "needs a species unknown when FindComponents ran", "anchors": ["src/PhreeqcRM.cpp: PhreeqcRM::GetSpeciesConcentrations, PhreeqcRM::GetSpeciesLog10Gammas, PhreeqcRM::GetSpeciesLog10Molalities"]}
{"id": "C70", "title": "Reading concentrations is repeatable and changes no amounts", "statement": "Calling GetConcentrations twice in a row, with nothing in between, returns the same array both times; the call changes no total amount of any element, no water mass, volume, density, hydrogen, oxygen or charge in any cell.", "quantifier": "all modules whose solutions hold well-formed element totals, any number of cells, workers and components", "why_tests_cant": "The getter rewrites the solutions it reads (it merges valence states in place); a test compares one call with expected values and does not see what the call did to the state.", "anchors": ["src/PhreeqcRM.cpp:3569-3628", "src/PhreeqcRM.cpp:1815-1938"]}
{"id": "C71", "title": "Solid solutions that share components are merged into exclusive groups", "statement": "GetSolidSolutionComponents and GetSolidSolutionNames have equal length after the first FindComponents; every component of every SOLID_SOLUTIONS definition is listed exactly once, under the name of a solid solution with which it is linked by a chain of shared components, and linked components are listed under the same name. The merging loop terminates.", "quantifier": "for all numbers of assemblages and solid solutions and all component sets, however they overlap", "why_tests_cant": "Tests use one or two solid solutions; transitive merging over long chains and termination of the repeat loop depend on every overlap pattern.", "anchors": ["src/IPhreeqcPhast/IPhreeqc/phreeqcpp/Phreeqc.cpp:286-362", "src/PhreeqcRM.cpp:3221-3254"]}
{"id": "C72", "title": "FindComponents can be repeated", "statement": "Calling FindComponents again without new definitions returns the same count and leaves all name lists unchanged: components, equilibrium phases, gas components, kinetic reactions, solid solutions, surfaces, exchangers and saturation-index names.", "quantifier": "for all sets of definitions and all earlier histories of calls", "why_tests_cant": "Tests call FindComponents once or look only at the component count; the lists accumulate over a history of calls.", "anchors": ["src/PhreeqcRM.cpp:2824-3262"]}
{"id": "C73", "title": "Surface and exchange species lists are aligned with their types and names", "statement": "After FindComponents, entry i of GetSurfaceTypes and GetSurfaceNames is the type of surface species i and the surface name given last for that type, entry i of GetExchangeNames is the exchanger of exchange species i, and every species of every type ever defined is listed.", "quantifier": "for all definitions, all sets of species per type, and all earlier calls", "why_tests_cant": "Tests compare the lists for one database; alignment must hold for any number of species per type and types carried over from earlier calls.", "anchors": ["src/PhreeqcRM.cpp:2981-3134"]}
{"id": "C74", "title": "Name lists accumulate over FindComponents calls", "statement": "GetEquilibriumPhases, GetGasComponents and GetKineticReactions list in strictly increasing order, without repetition, exactly the names found by the successful calls of FindComponents so far; a failing call leaves these lists unchanged.", "quantifier": "for all histories of calls, failing ones included", "why_tests_cant": "Tests look at the lists after one successful call.", "anchors": ["src/PhreeqcRM.cpp:3146-3220"]}
{"id": "C75", "title": "Species concentrations of mixed boundary solutions are averaged", "statement": "InitialPhreeqc2SpeciesConcentrations for a mixture of two solutions returns for every aqueous species the mean of its concentrations in the two, weighted by the mass of water each contributes; a species missing in one of them counts there as zero.", "quantifier": "for every set of solutions, species and mixing fraction", "why_tests_cant": "needs species present in only one of the solutions and exact arithmetic", "anchors": ["src/PhreeqcRM.cpp: PhreeqcRM::InitialPhreeqc2SpeciesConcentrations", "src/IPhreeqcPhast/IPhreeqc/phreeqcpp/Solution.cxx: cxxSolution::add"]}
{"id": "C76", "title": "Mixing keeps equal isotope ratios", "statement": "Mixing solutions that have the same isotope ratio gives a solution with that ratio; the moles of every isotope add up.", "quantifier": "for every list of solutions and positive factors", "why_tests_cant": "every list and every isotope", "anchors": ["src/IPhreeqcPhast/IPhreeqc/phreeqcpp/Solution.cxx: cxxSolution::Add_isotopes"]}
{"id": "C77", "title": "Initial conditions give each cell the amounts defined", "statement": "After a successful InitialPhreeqc2Module, a cell with first number n1, second number n2 and fraction f holds, for every reactant kind with n1 >= 0, f times the moles defined for n1 plus (1-f) times those for n2, times the representative volume, or that volume times porosity, or times (1-porosity), as the units setting says; solutions are mixed by volume and fill porosity*saturation*volume; kinds with n1 < 0 are as before; and each cell is held by its own worker only.", "quantifier": "all grids, mappings, worker counts, arrays, fractions in [0,1], reactant definitions and prior contents", "why_tests_cant": "Tests compare a few columns against stored output; amounts of every reactant kind under every unit and every mapping and worker count cannot be enumerated.", "anchors": ["src/PhreeqcRM.cpp:410-699", "src/PhreeqcRM.cpp:6214-6409"]}
{"id": "C78", "title": "A failed call of InitialPhreeqc2Module has no later effect", "statement": "After InitialPhreeqc2Module has returned an error, a later successful call that gives a cell only negative numbers leaves that cell as it was.", "quantifier": "all pairs of calls, mappings and worker counts", "why_tests_cant": "Needs two calls, several workers and an error in a cell of one worker only; the effect appears in another call.", "anchors": ["src/PhreeqcRM.cpp:6308-6393"]}
{"id": "C79", "title": "Gas phase volumes survive a set/get round trip", "statement": "After SetGasPhaseVolume, GetGasPhaseVolume returns each non-negative value set, in every grid cell of the reaction cell; the gas phase has fixed volume and keeps its components; a negative value leaves the gas phase of the cell as it was.", "quantifier": "all grids, mappings, worker counts, arrays and previous gas phases", "why_tests_cant": "Mappings, worker counts and the combinations of present and absent gas phases are unbounded.", "anchors": ["src/PhreeqcRM.cpp:11429-11535", "src/PhreeqcRM.cpp:4268-4303"]}
{"id": "C80", "title": "Writing back gas moles changes nothing", "statement": "SetGasCompMoles called with the array that GetGasCompMoles has just returned leaves every gas phase as it was.", "quantifier": "all grids, mappings, worker counts, component lists and gas phases", "why_tests_cant": "Needs gas phases of every shape, also one with a volume and no components, which no test sets up.", "anchors": ["src/PhreeqcRM.cpp:11280-11424", "src/PhreeqcRM.cpp:3858-3905"]}
{"id": "C81", "title": "Gas phases set by the user survive saving and applying a state", "statement": "After SetGasCompMoles, StateSave(i) and StateApply(i), GetGasCompMoles returns what it returned before StateSave.", "quantifier": "all grids, mappings, worker counts, arrays and previous gas phases", "why_tests_cant": "Fails only for cells that had no gas phase before, and only for cells other than number 1, when no run happens in between.", "anchors": ["src/PhreeqcRM.cpp:11399-11417", "src/PhreeqcRM.cpp:12753-12822", "src/IPhreeqcPhast/IPhreeqc/phreeqcpp/structures.cpp:3039-3046", "src/IPhreeqcPhast/IPhreeqc/phreeqcpp/NumKeyword.cxx:25-30"]}
{"id": "C82", "title": "Pressures and temperatures given by the user can be read back", "statement": "After SetPressure (SetTemperature), GetPressure (GetTemperature) returns for every mapped grid cell the value given for the first grid cell of its reaction cell, and for every unmapped cell the value given for that cell.", "quantifier": "for every mapping, number of workers and vector at least as long as the grid", "why_tests_cant": "depends on every mapping and partition of the cells over workers", "anchors": ["src/PhreeqcRM.cpp: SetPressure, GetPressure, SetTemperature, GetTemperature"]}
{"id": "C83", "title": "The error string tells about the last call", "statement": "GetErrorString is empty after an accepted setter call, whatever failed before, and after a refused one ends with the meaning of the code and the name of the method.", "quantifier": "for every history of setter calls", "why_tests_cant": "every history, including accumulated failures", "anchors": ["src/PhreeqcRM.cpp: ErrorMessage, DecodeError, ReturnHandler, ErrorHandler and the setters"]}
{"id": "C84", "title": "A refused setter call changes no setting", "statement": "When a setter returns an error code, every setting and every cell is as before.", "quantifier": "for every history and every refused call", "why_tests_cant": "rejected values are rarely followed by an inspection of the whole state", "anchors": ["src/PhreeqcRM.cpp: SetErrorHandlerMode, SetFilePrefix, SetDumpFileName, SetGeneric, SetUnits*, SetPrintChemistryMask"]}
{"id": "C85", "title": "Destroying a module by identifier is always defined", "statement": "DestroyReactionModule(id) on a living module returns and never has undefined behaviour, whichever way the module was created.", "quantifier": "for every history of construction (by new, as a variable, through the C interface) and destruction", "why_tests_cant": "depends on how the object with that identifier was allocated", "anchors": ["src/PhreeqcRM.h: StaticIndexer::Destroy, DestroyAll"]}
{"id": "C86", "title": "The registry of modules is safe to use from several threads", "statement": "Threads may create, look up and destroy their own modules concurrently without undefined behaviour.", "quantifier": "for every number of threads, every list of calls of each and every schedule", "why_tests_cant": "data races depend on the schedule", "anchors": ["src/PhreeqcRM.h: StaticIndexer"]}
{"id": "C87", "title": "BMI calls are memory safe in every order", "statement": "No GetValue, SetValue, GetValuePtr, Update, UpdateUntil, FindComponents or direct setter call, with values of the variable's type and size, reads or writes outside a buffer or divides by zero, whatever calls came before.", "quantifier": "for every sequence of BMI and module calls, returning or throwing, on every grid", "why_tests_cant": "buffers are sized lazily by whichever call comes first", "anchors": ["src/VarManager.cpp: VarManager::*_Var, RM2BMIUpdate", "src/BMIVariant.h: SetDoubleVector", "src/BMIPhreeqcRM.cpp: GetValue, SetValue, GenerateAutoOutputVars"]}
{"id": "C88", "title": "String variables are read whole through GetValue(void*)", "statement": "GetValue(name, void*) of a string variable copies the string the module has, not more and not less.", "quantifier": "for every string and every earlier call", "why_tests_cant": "depends on the length the string had when the variable was first used", "anchors": ["src/BMIPhreeqcRM.cpp: GetValue(std::string, void*)", "src/VarManager.cpp: VarManager::ErrorString_Var, FilePrefix_Var"]}
{"id": "C89", "title": "Update does not advance the time past a failed run", "statement": "If RunCells fails, Update does not move the time forward.", "quantifier": "for every failing run", "why_tests_cant": "failing runs are not part of the tests", "anchors": ["src/BMIPhreeqcRM.cpp: Update, UpdateUntil"]}
{"id": "C90", "title": "SetValue reports a vector of the wrong size", "statement": "SetValue with a vector whose length is not that of the variable fails visibly and changes nothing.", "quantifier": "for every variable, state and length", "why_tests_cant": "every wrong length", "anchors": ["src/BMIPhreeqcRM.cpp: SetValue(std::string, std::vector<double>)"]}
{"id": "C91", "title": "Setters of the module show through BMI pointers", "statement": "After a setter of PhreeqcRM itself (SetPorosity, SetConcentrations, SetTime, ...) the pointers given out before show the new values, including concentrations and saturations that depend on them.", "quantifier": "for every sequence of calls before", "why_tests_cant": "depends on flags left behind by earlier calls", "anchors": ["src/VarManager.cpp: VarManager::RM2BMIUpdate, CurrentVar", "src/PhreeqcRM.cpp: PhreeqcRM::UpdateBMI"]}
{"id": "C92", "title": "Reading a listed automatic variable stays inside the table", "statement": "GetValue of any automatic variable listed by GetOutputVarNames reads only existing entries of the selected-output table.", "quantifier": "for every history of FindComponents, AddOutputVars, RunCells, SetSelectedOutputOn and GetValue", "why_tests_cant": "depends on which calls came before and on the names found", "anchors": ["src/BMIPhreeqcRM.cpp: GetValue", "src/VarManager.cpp: VarManager::GenerateAutoOutputVars"]}
{"id": "C93", "title": "A YAML file fixes the size of the module wherever the entries stand", "statement": "If a YAML file contains one SetGridCellCount entry and at most one ThreadCount entry, BMIPhreeqcRM::Initialize constructs the module with that number of cells and threads, at whatever place of the file the entries stand, and GetGridCellCountYAML returns the same number.", "quantifier": "all recorded documents, all positions of the entries", "why_tests_cant": "tests use files that begin with the two entries", "anchors": ["src/BMIPhreeqcRM.cpp:166-206", "src/PhreeqcRM.cpp:124-146"]}
{"id": "C94", "title": "The order of the items of a YAML entry does not matter", "statement": "A YAML map has no order: an entry of the file means the same call whatever the order in which its keyword and its named arguments are written.", "quantifier": "all entries and all permutations of their items", "why_tests_cant": "files written by YAMLPhreeqcRM always have the same order; hand-written files do not", "anchors": ["src/PhreeqcRM.cpp:5500-5932"]}
{"id": "C95", "title": "InitializeYAML reports failing calls", "statement": "If one of the calls made by InitializeYAML returns an error, InitializeYAML returns an error or throws.", "quantifier": "all modules, all documents", "why_tests_cant": "tests replay documents whose calls all succeed", "anchors": ["src/PhreeqcRM.cpp:5500-5932"]}
{"id": "C96", "title": "DumpModule is defined for every number of cells", "statement": "DumpModule has defined behaviour for every number of reaction cells that an int can hold.", "quantifier": "every number of cells and partition into workers", "why_tests_cant": "a test would need more than twenty million cells", "anchors": ["src/PhreeqcRM.cpp:2443-2617"]}
{"id": "C97", "title": "A dump keeps every number", "statement": "Numbers read back from a dump are the numbers that were dumped.", "quantifier": "all doubles", "why_tests_cant": "tests compare with a tolerance", "anchors": ["src/IPhreeqcPhast/IPhreeqc/phreeqcpp/StorageBin.cxx:921", "src/IPhreeqcPhast/IPhreeqc/phreeqcpp/Solution.cxx:163", "src/IPhreeqcPhast/IPhreeqc/phreeqcpp/NameDouble.cxx:116"]}
{"id": "C98", "title": "Unreadable numbers in cell lists are rejected", "statement": "A word in a list of cells that is not the number of a cell (too large for an int, no digits) is reported as an error and never widens the selection.", "quantifier": "for every list of words", "why_tests_cant": "all words; the failure is silent", "anchors": ["src/IPhreeqcPhast/IPhreeqc/phreeqcpp/StorageBinList.cpp: StorageBinListItem::Augment"]}
{"id": "C99", "title": "DELETE removes exactly what its lines ask for", "statement": "A DELETE definition removes the union of what its lines ask for (-solution list, -cells list, -all) and nothing else.", "quantifier": "for every sequence of lines", "why_tests_cant": "all combinations and orders of lines", "anchors": ["src/IPhreeqcPhast/IPhreeqc/phreeqcpp/StorageBinList.cpp: StorageBinList::Read, TransferAll, SetAll", "src/IPhreeqcPhast/IPhreeqc/phreeqcpp/ReadClass.cxx: delete_entities"]}
{"id": "C100", "title": "Name functions of the C interface refuse every index outside the list", "statement": "RM_GetComponent, RM_GetExchangeSpeciesName, RM_GetSIName and the other functions that return a name by index give the name for an index of the list and refuse every other index with IRM_INVALIDARG.", "quantifier": "for every list, index and buffer", "why_tests_cant": "all indices, including one past the end, where the effect is undefined and often invisible", "anchors": ["src/RM_interface_C.cpp: RM_GetComponent, RM_GetExchangeSpeciesName, RM_GetSIName and others", "src/RM_interface_C.cpp: RM_BmiGetInputVarName"]}
{"id": "C101", "title": "Names returned to C callers are terminated", "statement": "After IRM_OK from a name function of the C interface the buffer holds a terminated string, as much of the name as fits.", "quantifier": "for every name and buffer length", "why_tests_cant": "boundary length; what follows the buffer", "anchors": ["src/RM_interface_C.cpp: RM_GetComponent and others (strncpy)"]}
{"id": "C102", "title": "Fortran name lists hold every name in full", "statement": "RM_GetComponents, RM_GetSpeciesNames and the other list functions of the Fortran interface allocate and return all names in full, padded to a common length, with IRM_OK.", "quantifier": "for every list of names", "why_tests_cant": "lists of any length including none, names of any length", "anchors": ["src/RM_interface.F90: RM_GetComponents, RM_GetEquilibriumPhasesNames and others"]}
{"id": "C103", "title": "Prefix, error messages and input strings cross the language border in full", "statement": "RM_GetFilePrefix and RM_GetErrorString give Fortran callers the whole text (C callers too with the documented buffer), and a Fortran argument arrives in the library without its trailing blanks and otherwise unchanged.", "quantifier": "for every text", "why_tests_cant": "all lengths", "anchors": ["src/RM_interface.F90: RM_GetFilePrefix, RM_GetErrorString", "src/RM_interface_F.cpp: RMF_GetFilePrefix, RMF_GetErrorString", "src/RM_interface_C.cpp: RM_GetErrorString"]}
{"id": "C104", "title": "Moving cells to another process neither loses nor duplicates them", "statement": "When load rebalancing moves cells between processes, afterwards every moved cell exists with all its reactants in the receiving process and no longer in the sending one, and no other cell of either process changes.", "quantifier": "for all sets of cells, all contents of both processes", "why_tests_cant": "needs several processes with different loads; the movement depends on timing", "anchors": ["src/PhreeqcRM.cpp:7937-8034", "src/IPhreeqcPhast/IPhreeqc/phreeqcpp/Serializer.cxx: Serialize, Deserialize"]}
{"id": "C105", "title": "Scattering gathered values returns the values held by the processes", "statement": "Values held per reaction cell by the processes, gathered in a grid-sized array by GatherNchem and scattered again by ScatterNchem, are the same values in the same processes.", "quantifier": "for all mappings, partitions and values", "why_tests_cant": "all partitions of all mappings", "anchors": ["src/PhreeqcRM.cpp:3266-3313", "src/PhreeqcRM.cpp:10839-11008"]}
{"id": "C106", "title": "Stepwise reaction amounts add up", "statement": "For a REACTION defined as a total in n equal increments, the amounts added step by step with incremental reactions add up after j steps to the amount added in the j-th step without incremental reactions, and after the n-th step to the total.", "quantifier": "for every total, every number of increments and every number of steps run", "why_tests_cant": "unbounded number of increments and steps; two run modes must agree", "anchors": ["src/IPhreeqcPhast/IPhreeqc/phreeqcpp/step.cpp:913-973", "src/IPhreeqcPhast/IPhreeqc/phreeqcpp/read.cpp:4553-4654"]}
{"id": "C107", "title": "Running a cell advances its kinetics by exactly the time step", "statement": "In RunCells the kinetic reactions of a cell are integrated over exactly the time step set by SetTimeStep, whatever steps the KINETICS, REACTION and REACTION_TEMPERATURE definitions of the cell ask for, with and without incremental reactions.", "quantifier": "for every time step and every combination of definitions", "why_tests_cant": "all schedules and time steps; sums of fractions of a step", "anchors": ["src/IPhreeqcPhast/IPhreeqc/phreeqcpp/ReadClass.cxx:676-850", "src/PhreeqcRM.cpp:10373-10377"]}
{"id": "C108", "title": "TOTAL_TIME in user programs is the time of the module", "statement": "After RunCells, TOTAL_TIME in the BASIC programs of a cell is the time set by SetTime.", "quantifier": "for every time, time step and cell", "why_tests_cant": "all schedules and cells", "anchors": ["src/IPhreeqcPhast/IPhreeqc/phreeqcpp/PBasic.cpp:4694-4721", "src/PhreeqcRM.cpp:10373-10377"]}
{"id": "C109", "title": "Temperature and pressure ramps start and end at the given values", "statement": "A temperature or pressure definition with two values and n steps takes the first value in step 1, the second value in step n (for n of at least 2) and afterwards, and stays between the two with equal differences.", "quantifier": "for all values, all n and all steps", "why_tests_cant": "all numbers of steps", "anchors": ["src/IPhreeqcPhast/IPhreeqc/phreeqcpp/Temperature.cxx:330-374", "src/IPhreeqcPhast/IPhreeqc/phreeqcpp/Pressure.cxx:322-366"]}
{"id": "C110", "title": "Time units convert consistently", "statement": "Converting a time from one unit to another and back gives the time again, and converting through a third unit makes no difference.", "quantifier": "for all times and units", "why_tests_cant": "all times", "anchors": ["src/IPhreeqcPhast/IPhreeqc/phreeqcpp/common/Utils.cxx:136-177"]}
{"id": "C111", "title": "RunFile runs the file in the chosen instances", "statement": "RunFile(workers, initial, utility, name) runs the file in exactly the instances chosen by the flags, remembers the name and reports failure if and only if the name is empty or one of these runs fails.", "quantifier": "for all flags, worker counts, names and run outcomes", "why_tests_cant": "all run outcomes of all instances and all interleavings of the threads", "anchors": ["src/PhreeqcRM.cpp:10511-10643"]}
{"id": "C112", "title": "LoadDatabase loads every instance", "statement": "LoadDatabase loads the database in every worker, InitialPhreeqc and Utility, keeps the choice of SetSpeciesSaveOn, and reports failure if and only if the name is empty or one of the loads fails.", "quantifier": "for all worker counts, names and load outcomes", "why_tests_cant": "all load outcomes of all instances", "anchors": ["src/PhreeqcRM.cpp:6931-6996", "src/PhreeqcRM.cpp:12198-12226", "src/IPhreeqcPhast/IPhreeqc/IPhreeqc.cpp:626-648"]}
{"id": "C113", "title": "The message about missing solutions names the cells that lack them", "statement": "If a reaction cell has no solution in the worker that owns it, CheckCells stops the run with a message that lists exactly the reaction cells without solution, each with its grid cells; if every reaction cell has a solution it lets the run go on without a message.", "quantifier": "for all assignments of cells to workers, mappings and sets of missing solutions", "why_tests_cant": "all sets of missing cells and all mappings", "anchors": ["src/PhreeqcRM.cpp:765-802"]}
{"id": "C114", "title": "Concentrations2Utility makes solutions with the concentrations given", "statement": "Given n sets of concentrations, temperatures and pressures, Concentrations2Utility makes solutions 1 to n in the Utility instance. Solution i holds the amounts of set i in one litre, or in one kilogram for mass fractions, at the temperature and pressure given; other solutions of Utility are left alone. Before FindComponents the call stops with a message.", "quantifier": "for all component lists, units, numbers of sets and values", "why_tests_cant": "all units, components and values", "anchors": ["src/PhreeqcRM.cpp:1283-1446", "src/PhreeqcRM.h:391-438", "src/IPhreeqcPhast/IPhreeqc/phreeqcpp/Solution.cxx:1202-1222"]}
{"id": "C115", "title": "SpeciesConcentrations2Module stores the elements of the species", "statement": "With saving of species on, SpeciesConcentrations2Module gives the solution of every reaction cell the hydrogen, oxygen, charge and elements its species contain: concentration times coefficient times the volume of water of the cell, summed over the species. Amounts below 1e-25 mol become zero. A vector of the wrong size, or saving of species off, is refused.", "quantifier": "for all mappings, species, formulas and concentrations", "why_tests_cant": "all formulas and concentrations", "anchors": ["src/PhreeqcRM.cpp:12572-12659", "src/PhreeqcRM.cpp:2930-2945"]}
{"id": "C116", "title": "InitialPhreeqc2SpeciesConcentrations gives the species of the boundary solutions", "statement": "For every boundary entry the value of a species is its concentration in the first solution, or in the mixture of the first and second solution with the fractions given; a species that is in neither has the value zero. Solutions that do not exist are reported.", "quantifier": "for all boundary lists, fractions, solutions and species tables", "why_tests_cant": "all solutions, fractions and species", "anchors": ["src/PhreeqcRM.cpp:6411-6535", "src/IPhreeqcPhast/IPhreeqc/phreeqcpp/Solution.cxx:1412-1484"]}
{"id": "C117", "title": "Formulas are read as written", "statement": "The elements and coefficients taken from a chemical formula are those written: subscripts apply to their element or group, nested groups multiply, a part behind a colon is multiplied by its own coefficient, a charge ends the formula. A text that is no formula (unbalanced parentheses, unknown characters, brackets left open, numbers without digits) is reported.", "quantifier": "for all formulas, with any depth of groups and any number of parts", "why_tests_cant": "unbounded nesting and length", "anchors": ["src/IPhreeqcPhast/IPhreeqc/phreeqcpp/parse.cpp:487-692", "src/IPhreeqcPhast/IPhreeqc/phreeqcpp/parse.cpp:946-1006"]}
{"id": "C118", "title": "GetGfw gives the formula weight of every component", "statement": "After FindComponents the vector of GetGfw holds for every component the sum of coefficient times element weight over the elements of its formula, and 1 for the charge, whatever formulas were asked before. A component without a weight is reported.", "quantifier": "for all component lists, element weights and earlier requests", "why_tests_cant": "all formulas and all histories of the remembered weights", "anchors": ["src/IPhreeqcPhast/IPhreeqc/phreeqcpp/utilities.cpp:218-257", "src/IPhreeqcPhast/IPhreeqcPhast.cxx:46-52", "src/PhreeqcRM.cpp:2889-2900"]}
{"id": "C119", "title": "InitialPhreeqcCell2Module copies a whole cell and nothing else", "statement": "InitialPhreeqcCell2Module(n, cells) gives every reaction cell whose grid cell is listed the solution of cell n filled up to porosity*saturation*volume and every other reactant of number n scaled as its units setting says, in the worker that owns the cell; earlier reactants of the listed cells are removed; cells that are not listed keep everything. A negative n stands for the largest solution or MIX number; if MIX n exists it defines the solution; a number that names no cell returns IRM_INVALIDARG and changes nothing.", "quantifier": "for all contents of the InitialPhreeqc instance, mappings, partitions, settings, lists of grid cells (with repetitions) and earlier contents of the workers", "why_tests_cant": "all lists and earlier contents", "anchors": ["src/PhreeqcRM.cpp:6713-6890", "src/PhreeqcRM.h:3769-3777", "src/IPhreeqcPhast/IPhreeqc/phreeqcpp/Phreeqc.h:1941-1950"]}
{"id": "C120", "title": "A caller can cycle through all selected outputs by sequence number", "statement": "GetSelectedOutputCount is the number of selected-output definitions. For every sequence number below it GetNthSelectedOutputUserNumber returns a different user number, in increasing order, and SetNthSelectedOutput selects that definition, so that GetSelectedOutputColumnCount, GetSelectedOutputHeadings and GetSelectedOutputHeading then agree on the headings of that definition; other sequence numbers fail and leave the selection as it was.", "quantifier": "for all sets of definitions, all runs and all sequences of selections", "why_tests_cant": "all sequences of calls between definitions, runs and selections", "anchors": ["src/PhreeqcRM.cpp:4315-4338", "src/PhreeqcRM.cpp:4640-4738", "src/PhreeqcRM.cpp:11874-11889", "src/PhreeqcRM.h:1606-1640"]}
{"id": "C121", "title": "The selected output a caller selected stays selected", "statement": "SetCurrentSelectedOutputUserNumber selects a definition, and refuses numbers that are not defined; the selection stays the same until the next selection, whatever else is called.", "quantifier": "for all sequences of calls", "why_tests_cant": "unbounded sequences of calls", "anchors": ["src/PhreeqcRM.cpp:11538-11547", "src/PhreeqcRM.cpp:10259-10310", "src/IPhreeqcPhast/IPhreeqc/IPhreeqc.cpp:944-952"]}
{"id": "C122", "title": "An exchange assemblage can be restarted from a dump file", "statement": "Reading the text that DumpModule (or DUMP) writes for an exchange assemblage, as part of any file, reports no error, consumes exactly that block, and gives an assemblage with the same number, description, components, moles, activities and flags, with each double as printed (14 digits); dumping it again gives the same text.", "quantifier": "for all exchange assemblages: any number of components, any lists of elements; all texts that follow", "why_tests_cant": "assemblages with any elements and component names; two separately written functions (writer and reader) have to agree on all of them", "anchors": ["src/IPhreeqcPhast/IPhreeqc/phreeqcpp/Exchange.cxx:128-323", "src/IPhreeqcPhast/IPhreeqc/phreeqcpp/ExchComp.cxx:85-281", "src/IPhreeqcPhast/IPhreeqc/phreeqcpp/common/Parser.cxx:758-826"]}
{"id": "C123", "title": "A solution can be restarted from a dump file", "statement": "Reading the text that DumpModule (or DUMP) writes for a solution, as part of any file, reports no error, consumes exactly that block, and gives a solution with the same number, description, temperature, pressure, pH, pe, masses, volume, totals, isotopes, activities, activity coefficients and species maps, with each double as printed (14 digits); dumping it again gives the same text.", "quantifier": "for all solutions: any totals and valence states, any isotopes and species lists; all texts that follow", "why_tests_cant": "solutions with any combination of elements and valence states; writer and reader have to agree on all of them", "anchors": ["src/IPhreeqcPhast/IPhreeqc/phreeqcpp/Solution.cxx:233-372", "src/IPhreeqcPhast/IPhreeqc/phreeqcpp/Solution.cxx:718-1200", "src/IPhreeqcPhast/IPhreeqc/phreeqcpp/SolutionIsotope.cxx:80-103"]}
{"id": "C124", "title": "A gas phase can be restarted from a dump file", "statement": "Reading the text that DumpModule (or DUMP) writes for a gas phase, as part of any file, reports no error, consumes exactly that block, and gives a gas phase with the same number, description, kind, pressure, volume, flags, totals and components, each component with its moles, partial pressure and fugacity as printed; dumping it again gives the same text.", "quantifier": "for all gas phases with any number of components; all texts that follow", "why_tests_cant": "writer and reader are separate functions that have to agree on all entities and on all texts that follow", "anchors": ["src/IPhreeqcPhast/IPhreeqc/phreeqcpp/GasPhase.cxx:158-459", "src/IPhreeqcPhast/IPhreeqc/phreeqcpp/GasComp.cxx:48-174"]}
{"id": "C125", "title": "Reaction temperatures, pressures, reactions and mixtures can be restarted from a dump file", "statement": "Reading the text written for a reaction temperature, a reaction pressure, a reaction (with units, and with no reactant named like an option of REACTION_RAW) or a mixture, as part of any file, reports no error, consumes exactly that block, and gives the same number, description, kind and values as printed, in the same order and number.", "quantifier": "for all temperatures, pressures, reactions and mixtures with any number of values; all texts that follow", "why_tests_cant": "writer and reader are separate functions that have to agree on all entities and on all texts that follow", "anchors": ["src/IPhreeqcPhast/IPhreeqc/phreeqcpp/Temperature.cxx:157-328", "src/IPhreeqcPhast/IPhreeqc/phreeqcpp/Pressure.cxx:157-320", "src/IPhreeqcPhast/IPhreeqc/phreeqcpp/Reaction.cxx:43-266", "src/IPhreeqcPhast/IPhreeqc/phreeqcpp/cxxMix.cxx:40-142"]}
{"id": "C126", "title": "Kinetic reactants can be restarted from a dump file", "statement": "Reading the text written for kinetic reactants with distinct rate names, none of whose formulas or elements is named like an option, reports no error, consumes exactly that block, and gives the same integration settings, time steps, and components with the same formulas, parameters, tolerances and moles as printed; dumping it again gives the same text.", "quantifier": "for all kinetic reactants with any number of components, parameters and time steps; all texts that follow", "why_tests_cant": "writer and reader are separate functions that have to agree on all entities and on all texts that follow", "anchors": ["src/IPhreeqcPhast/IPhreeqc/phreeqcpp/cxxKinetics.cxx:80-421", "src/IPhreeqcPhast/IPhreeqc/phreeqcpp/KineticsComp.cxx:47-222"]}
{"id": "C127", "title": "Equilibrium phases can be restarted from a dump file", "statement": "Reading the text written for an equilibrium-phase assemblage, as part of any file, reports no error, consumes exactly that block, and gives the same phases with the same target saturation indices, moles and settings as printed; dumping it again gives the same text.", "quantifier": "for all assemblages with any number of phases; all texts that follow", "why_tests_cant": "writer and reader are separate functions that have to agree on all entities and on all texts that follow", "anchors": ["src/IPhreeqcPhast/IPhreeqc/phreeqcpp/PPassemblage.cxx:97-242", "src/IPhreeqcPhast/IPhreeqc/phreeqcpp/PPassemblageComp.cxx:82-311"]}
{"id": "C128", "title": "Solid solutions can be restarted from a dump file", "statement": "Reading the text written for solid solutions, as part of any file, reports no error, consumes exactly that block, and gives the same solid solutions with the same parameters and the same components in the same order with the same moles as printed; dumping it again gives the same text.", "quantifier": "for all solid-solution assemblages with any number of solid solutions and components; all texts that follow", "why_tests_cant": "writer and reader are separate functions that have to agree on all entities and on all texts that follow", "anchors": ["src/IPhreeqcPhast/IPhreeqc/phreeqcpp/SSassemblage.cxx:67-203", "src/IPhreeqcPhast/IPhreeqc/phreeqcpp/SS.cxx:58-374", "src/IPhreeqcPhast/IPhreeqc/phreeqcpp/SScomp.cxx:51-220"]}
{"id": "C129", "title": "A surface can be restarted from a dump file", "statement": "Reading the text that DumpModule (or DUMP) writes for a surface, as part of any file, reports no error, consumes exactly that block, and gives a surface with the same number, description, electrostatic model and settings, the same components with their moles, activities and totals, and the same charges with their areas, potentials, diffuse layers and charge densities as printed; dumping it again gives the same text.", "quantifier": "for all surfaces with any number of components and charges, any diffuse layers; all texts that follow", "why_tests_cant": "writer and reader are separate functions that have to agree on all entities and on all texts that follow", "anchors": ["src/IPhreeqcPhast/IPhreeqc/phreeqcpp/Surface.cxx:110-560", "src/IPhreeqcPhast/IPhreeqc/phreeqcpp/SurfaceComp.cxx:85-366", "src/IPhreeqcPhast/IPhreeqc/phreeqcpp/SurfaceCharge.cxx:85-446"]}
{"id": "C130", "title": "A whole dump file restarts everything that was asked for and nothing else", "statement": "Running the file written by DumpModule (or DUMP) for any selection of entities reports no error, stops at the end of the file or at END, and leaves each worker with every entity that was selected and present (number not negative), as its own restart makes it, and every other entity of the reading object as it was; a file read by a new object and dumped again with the same selection is the same file line by line.", "quantifier": "for all contents of the writing and of the reading object, all selections, any number of blocks, all texts after END", "why_tests_cant": "the property relates eleven writers, the dispatcher and eleven readers over all contents", "anchors": ["src/IPhreeqcPhast/IPhreeqc/phreeqcpp/ReadClass.cxx:854-1097", "src/IPhreeqcPhast/IPhreeqc/phreeqcpp/read.cpp:31-405", "src/IPhreeqcPhast/IPhreeqc/phreeqcpp/Phreeqc.h:1897-1910", "src/IPhreeqcPhast/IPhreeqc/phreeqcpp/Phreeqc.h:1988-2012"]}
{"id": "C131", "title": "Reactants of cells survive packing and unpacking", "statement": "Packing the reactants of the cells of a list of ranges into the dictionary, integer and double arrays and unpacking them in another process reports no error, consumes both arrays completely, and leaves that process with every packed reactant in the state it had in the sender, replacing any of the same number, and every other reactant as it was.", "quantifier": "for all solutions, exchangers, gas phases, kinetics, equilibrium phases, solid solutions, surfaces, temperatures and pressures with any number of components, all lists of ranges, all contents of the receiving process", "why_tests_cant": "writer and reader are positional and have to agree on every field of eleven classes for all sizes; the arrays carry no field names", "anchors": ["src/IPhreeqcPhast/IPhreeqc/phreeqcpp/Serializer.cxx:28-213", "src/PhreeqcRM.cpp:7946-7999"]}
{"id": "C132", "title": "MPI rebalancing moves every cell to its new owner and leaves no copy behind", "statement": "After cells are redistributed in the MPI build, each cell is held, with all its reactants, by the process whose new range contains it and by no other process; cells whose owner did not change are untouched, and reactants filed under numbers that are not cells stay where they were.", "quantifier": "for all numbers of cells and processes, all pairs of old and new ranges, all contents of the cells", "why_tests_cant": "cells may move between any pair of processes in any combination, and the order of transfers follows the text of a key", "anchors": ["src/PhreeqcRM.cpp:7903-8031", "src/PhreeqcRM.cpp:8880-9016"]}
{"id": "C133", "title": "In the MPI build every program of API calls ends, with all processes in step", "statement": "A program that makes any sequence of API calls on the root, with the other processes in MpiWorker, never deadlocks: whatever the order in which the processes run and whether or not the library buffers messages, the number of steps is bounded, every call returns or throws, the results are the same in every execution, all workers leave MpiWorker after MpiWorkerBreak, no message is left over, and the processes agree on settings, ranges and saved states.", "quantifier": "for all numbers of processes and cells, all sequences of the modelled calls with all arguments, all behaviours of the chemistry, all interleavings and all choices of buffering", "why_tests_cant": "deadlocks depend on the number of processes, the schedule and the buffering of the library; tests run one schedule", "anchors": ["src/PhreeqcRM.cpp:7016-7492", "src/PhreeqcRM.cpp:5403-5475", "src/PhreeqcRM.cpp:9666-9820", "src/PhreeqcRM.cpp:12044-12071"]}
{"id": "C134", "title": "In the MPI build settings made on the root hold in every process", "statement": "After any sequence of API calls, the time, time step, conversion factor, rebalance settings, units, error handler mode, file prefix, print flags, species and density flags and partition flag of every process are those that the calls would give a single process.", "quantifier": "for all sequences of the modelled calls, all numbers of processes, all executions", "why_tests_cant": "a setter has a root part, a broadcast and a worker part with dummy arguments; a fault shows only in cells of other processes", "anchors": ["src/PhreeqcRM.cpp:11046-11069", "src/PhreeqcRM.cpp:11723-11812", "src/PhreeqcRM.cpp:12008-12040", "src/PhreeqcRM.cpp:12283-12568"]}
{"id": "C135", "title": "In the MPI build every process has the values that the user last set for its own cells", "statement": "After any sequence of API calls, including runs that rebalance cells and calls that are refused, the density, porosity, representative volume and saturation that a process uses for each of its cells are those of the last vector accepted for the first grid cell of that cell.", "quantifier": "for all sequences of the modelled calls, all mappings, all rebalancings, all executions", "why_tests_cant": "depends on where each cell is at the time of each call", "anchors": ["src/PhreeqcRM.cpp:11816-11843", "src/PhreeqcRM.cpp:10920-11008", "src/PhreeqcRM.cpp:8061-8092", "src/PhreeqcRM.cpp:12781-12819"]}
{"id": "C136", "title": "In the MPI build a failure in any process is reported on the root", "statement": "LoadDatabase, RunFile, RunString and RunCells return IRM_OK on the root only if no process failed in them, and LoadDatabase, RunFile and RunString do return IRM_OK if no process failed; after a failure all processes are in step for the next call.", "quantifier": "for all numbers of processes, all sets of failing processes, all earlier calls, all executions", "why_tests_cant": "any subset of the processes may fail, in any order", "anchors": ["src/PhreeqcRM.cpp:5403-5475", "src/PhreeqcRM.cpp:6931-6996", "src/PhreeqcRM.cpp:10511-10590", "src/PhreeqcRM.cpp:10647-10730", "src/PhreeqcRM.cpp:9666-9820"]}
{"id": "C137", "title": "RunAccumulated runs exactly the accumulated lines", "statement": "Lines given to AccumulateLine are run by the next RunAccumulated, in order and each as one line; after a RunAccumulated they are kept until the next AccumulateLine, which starts anew; ClearAccumulatedLines, RunString, RunFile and the loads drop them. RunAccumulated returns what RunString of that text returns, and leaves the instance as RunString does.", "quantifier": "for all sequences of calls to an instance, all lines, all behaviours of the engine", "why_tests_cant": "whether a line is still held depends on the whole sequence of calls before", "anchors": ["src/IPhreeqcPhast/IPhreeqc/IPhreeqc.cpp:95-132", "src/IPhreeqcPhast/IPhreeqc/IPhreeqc.cpp:735-794", "src/IPhreeqcPhast/IPhreeqc/IPhreeqc.cpp:866-927"]}
{"id": "C138", "title": "Line getters of an instance show the lines of the string they go with", "statement": "At any time the count and the lines of output, log, selected output, errors and warnings are those of the corresponding string: every line terminated by a newline, in order, and the rest behind the last newline if there is one; a line number out of range gives the empty text.", "quantifier": "for all sequences of calls, all texts, all line numbers, all behaviours of the engine", "why_tests_cant": "strings and lines are kept apart and filled at different places; agreement depends on how the last calls ended", "anchors": ["src/IPhreeqcPhast/IPhreeqc/IPhreeqc.cpp:1511-1585", "src/IPhreeqcPhast/IPhreeqc/IPhreeqc.cpp:237-250", "src/IPhreeqcPhast/IPhreeqc/IPhreeqc.cpp:337-350", "src/IPhreeqcPhast/IPhreeqc/IPhreeqc.cpp:415-435"]}
{"id": "C139", "title": "A run reports all and only what the engine said in it, and returns 0 only without errors", "statement": "After a run the error, warning, output and log strings hold exactly the messages that the engine gave in that run, in order, the one that stopped it included; the log only while the input had it turned on. The value returned is not 0 if there was an error message, and 0 if there was neither an error message nor an input error.", "quantifier": "for all sequences of calls before, all inputs, all sequences of messages", "why_tests_cant": "messages of earlier runs, and counters that are reset per simulation, must not leak; all sequences of messages", "anchors": ["src/IPhreeqcPhast/IPhreeqc/IPhreeqc.cpp:1155-1180", "src/IPhreeqcPhast/IPhreeqc/IPhreeqc.cpp:1587-1654", "src/IPhreeqcPhast/IPhreeqc/phreeqcpp/utilities.cpp:1331-1339", "src/IPhreeqcPhast/IPhreeqc/phreeqcpp/PHRQ_io_output.cpp:272-298"]}
{"id": "C140", "title": "Nothing is run without a database, and everything is run with one", "statement": "If no database was loaded, or the last load failed, each run returns an error, says that no database is loaded, and does not reach the engine; after a load that returned 0 each run is run by the engine.", "quantifier": "for all sequences of loads and runs", "why_tests_cant": "depends on all calls before, and on how each load ended", "anchors": ["src/IPhreeqcPhast/IPhreeqc/IPhreeqc.cpp:578-712", "src/IPhreeqcPhast/IPhreeqc/IPhreeqc.cpp:1055-1180"]}
{"id": "C141", "title": "GetComponent and GetComponentCount give the components of the current state", "statement": "After any sequence of calls the components listed are those of the engine's state at that time.", "quantifier": "for all sequences of calls, all behaviours of the engine", "why_tests_cant": "the list is cached, and the cache is marked stale in three places", "anchors": ["src/IPhreeqcPhast/IPhreeqc/IPhreeqc.cpp:139-159", "src/IPhreeqcPhast/IPhreeqc/IPhreeqc.cpp:561-576", "src/IPhreeqcPhast/IPhreeqc/IPhreeqc.cpp:1511"]}
{"id": "C142", "title": "Every switch of an instance has the value it was given last", "statement": "Each of the nine output switches has, after any sequence of calls, the value the user gave it last, or its initial value; loads, which turn three of them off for a while, put them back.", "quantifier": "for all sequences of calls, all switches", "why_tests_cant": "a load changes switches and puts them back at the end; whether it gets there depends on the engine", "anchors": ["src/IPhreeqcPhast/IPhreeqc/IPhreeqc.cpp:626-648", "src/IPhreeqcPhast/IPhreeqc/IPhreeqc.cpp:690-712", "src/IPhreeqcPhast/IPhreeqc/IPhreeqc.cpp:963-1030"]}
{"id": "C143", "title": "The dump string holds what was dumped, and its lines show it", "statement": "After every call the dump lines are the lines of the dump string; after a run that the engine carried out and that returned, the dump string holds what was dumped since the last dump that did not ask to be appended, or everything added to what was there.", "quantifier": "for all sequences of calls, all sequences of dumps", "why_tests_cant": "depends on the order of appending and replacing dumps over several runs", "anchors": ["src/IPhreeqcPhast/IPhreeqc/IPhreeqc.cpp:1458-1483", "src/IPhreeqcPhast/IPhreeqc/IPhreeqc.cpp:176-199"]}
{"id": "C144", "title": "The string of each selected output is collected if, and only if, its switch is on", "statement": "After a run, GetSelectedOutputString with user number n current gives exactly what the run wrote to selected output n while selected output was turned on, if the string of n was switched on before the run, and nothing if it was switched off.", "quantifier": "for all numbers, all sequences of calls, all sequences of writes", "why_tests_cant": "needs several selected outputs with different switches, and one of them current", "anchors": ["src/IPhreeqcPhast/IPhreeqc/IPhreeqc.cpp:1661-1673", "src/IPhreeqcPhast/IPhreeqc/IPhreeqc.cpp:1837-1846", "src/IPhreeqcPhast/IPhreeqc/IPhreeqc.cpp:944-952", "src/IPhreeqcPhast/IPhreeqc/IPhreeqc.cpp:1050-1053"]}
{"id": "C145", "title": "No sequence of calls to an instance reads an input stream that no longer exists", "statement": "Whatever calls were made before and however they ended, each run and each load reads its own input and nothing else.", "quantifier": "for all sequences of calls, all behaviours of the engine, exceptions included", "why_tests_cant": "the reader keeps a list of pointers to streams on the stack of its callers", "anchors": ["src/IPhreeqcPhast/IPhreeqc/IPhreeqc.cpp:735-927", "src/IPhreeqcPhast/IPhreeqc/phreeqcpp/common/PHRQ_io.cpp:705-727"]}
{"id": "C146", "title": "Every input text is split into the lines its rules describe", "statement": "The readers of an input get, in order, the parts of its text between newlines, semicolons and comments, put together where a physical line ends with a backslash, without empty ones, and each marked as keyword, option or other line by its first word; carriage returns in front of newlines change nothing.", "quantifier": "for all texts, of any length, with any mixture of the special characters", "why_tests_cant": "backslashes, comments, semicolons and ends of file interact in three nested loops; tests use ordinary inputs", "anchors": ["src/IPhreeqcPhast/IPhreeqc/phreeqcpp/common/PHRQ_io.cpp:413-426", "src/IPhreeqcPhast/IPhreeqc/phreeqcpp/common/PHRQ_io.cpp:683-898"]}
{"id": "C147", "title": "An include line is replaced by the lines of the file it names", "statement": "Reading an input with include lines gives its lines with the lines of the included files in their places, to any depth, whether or not the files end with a newline; a file that cannot be opened ends the reading at its line; and reading ends.", "quantifier": "for all texts, all file systems, all depths of nesting", "why_tests_cant": "depends on the stack of open streams and on where each of them ends", "anchors": ["src/IPhreeqcPhast/IPhreeqc/phreeqcpp/common/PHRQ_io.cpp:705-727", "src/IPhreeqcPhast/IPhreeqc/phreeqcpp/common/PHRQ_io.cpp:778-814"]}
{"id": "C148", "title": "Printed lines of words are read back as the same words", "statement": "A text of lines made of words without special characters, with any blanks around them, is read back line by line and word by word.", "quantifier": "for all numbers of lines and words, all words, all blanks", "why_tests_cant": "the round trip has to hold for every dump the program can write", "anchors": ["src/IPhreeqcPhast/IPhreeqc/phreeqcpp/common/PHRQ_io.cpp:683-898", "src/IPhreeqcPhast/IPhreeqc/phreeqcpp/common/Parser.cxx:587-607"]}
{"id": "C149", "title": "A BASIC program consists of the lines last entered, in the order of their numbers", "statement": "Whatever the order and the repetitions in which numbered lines are entered, the program is sorted by line number, each number occurs once with the text entered last, an empty text removes the line, and DEL n1-n2 removes exactly the lines in that range.", "quantifier": "for all sequences of lines, all numbers and texts", "why_tests_cant": "insertion into a linked list depends on the history of all earlier lines", "anchors": ["src/IPhreeqcPhast/IPhreeqc/phreeqcpp/PBasic.cpp:1725-1762", "src/IPhreeqcPhast/IPhreeqc/phreeqcpp/PBasic.cpp:5749-5772"]}
{"id": "C150", "title": "A BASIC expression has the value of its tree", "statement": "Every expression can be written, and however it is written, with the least parentheses the precedences allow or with more, and whatever follows it, the interpreter gives the value of its tree (or the error that the tree has), stops exactly behind it and changes no variable; no text has two values.", "quantifier": "for all expressions of any depth, all values of variables and arrays, all following tokens", "why_tests_cant": "the seven mutually recursive levels of the parser evaluate while they parse; tests try a few formulas", "anchors": ["src/IPhreeqcPhast/IPhreeqc/phreeqcpp/PBasic.cpp:2056-2170", "src/IPhreeqcPhast/IPhreeqc/phreeqcpp/PBasic.cpp:5033-5298"]}
{"id": "C151", "title": "Conditions in BASIC combine as conditions", "statement": "If two expressions are conditions (1 or 0), their AND, OR, XOR and NOT are the conditions that logic says, so an IF on the combination is taken exactly when the combination holds.", "quantifier": "for all expressions, all states", "why_tests_cant": "the connectives are bit operations on converted doubles", "anchors": ["src/IPhreeqcPhast/IPhreeqc/phreeqcpp/PBasic.cpp:2153-2157", "src/IPhreeqcPhast/IPhreeqc/phreeqcpp/PBasic.cpp:5256-5298", "src/IPhreeqcPhast/IPhreeqc/phreeqcpp/PBasic.cpp:6148-6176"]}
{"id": "C152", "title": "An assignment to an array element changes that element alone", "statement": "After v(a) = e, reading the element with the same subscripts gives the value of e and reading any other element of any array gives what it gave before; subscripts outside the dimensions are an error and never reach another cell.", "quantifier": "for all arrays, all numbers of dimensions, all subscripts", "why_tests_cant": "depends on the row-major address being injective on the admitted subscripts", "anchors": ["src/IPhreeqcPhast/IPhreeqc/phreeqcpp/PBasic.cpp:1986-2054", "src/IPhreeqcPhast/IPhreeqc/phreeqcpp/PBasic.cpp:6101-6138", "src/IPhreeqcPhast/IPhreeqc/phreeqcpp/PBasic.cpp:6685-6759"]}
{"id": "C153", "title": "A structured BASIC program does what its statements say", "statement": "A program of assignments, DIM, PUNCH, GOSUB, IF-THEN-ELSE, FOR-NEXT and WHILE-WEND, nested to any depth and with any line numbers, ends with the variables and punched values that the meaning of the statements gives, with no record left on the loop stack.", "quantifier": "for all programs of this form, all subroutines including recursive ones, all numbers of iterations", "why_tests_cant": "control flow is a search for tokens forward and a stack of records backward; nesting can defeat either", "anchors": ["src/IPhreeqcPhast/IPhreeqc/phreeqcpp/PBasic.cpp:6148-6176", "src/IPhreeqcPhast/IPhreeqc/phreeqcpp/PBasic.cpp:6184-6510", "src/IPhreeqcPhast/IPhreeqc/phreeqcpp/PBasic.cpp:6812-7043"]}
{"id": "C154", "title": "A FOR loop is executed as often as its limits say", "statement": "With a step other than zero and a body that leaves the variable alone, the body is executed floor((b-a)/step)+1 times, or never if that is negative, with the variable equal to a, a+step, a+2 step, ..., and behind the loop the variable has the first value outside.", "quantifier": "for all limits and steps, all bodies", "why_tests_cant": "the two tests, at the FOR and at the NEXT, are written differently", "anchors": ["src/IPhreeqcPhast/IPhreeqc/phreeqcpp/PBasic.cpp:6218-6346"]}
{"id": "C155", "title": "READ takes the items of DATA in the order of the program", "statement": "READ delivers the items of all DATA statements in the order of the program, each once, whatever else is on the lines; RESTORE starts again from the first item, RESTORE n from the first item at or behind line n; one READ too many is an error.", "quantifier": "for all programs, all placements of DATA, all sequences of variables", "why_tests_cant": "the data place is a pointer into the token list that must survive every statement", "anchors": ["src/IPhreeqcPhast/IPhreeqc/phreeqcpp/PBasic.cpp:6512-6634"]}
{"id": "C156", "title": "GOTO and ON go to the line that is named", "statement": "GOTO n goes to line n, and is an error if there is none; ON x GOTO and ON x GOSUB go to the line in the place nearest to x; with no such place the statement does nothing.", "quantifier": "for all lists of line numbers, all values of x", "why_tests_cant": "the record of a GOSUB is pushed before the number is known", "anchors": ["src/IPhreeqcPhast/IPhreeqc/phreeqcpp/PBasic.cpp:6643-6683"]}
{"id": "C157", "title": "An array used without DIM has subscripts 0 to 10", "statement": "The first use of an array without DIM, read or assigned, acts as if DIM with 10 in every subscript had been given before.", "quantifier": "for all arrays of up to four subscripts, all subscript expressions", "why_tests_cant": "the number of subscripts is counted by a separate scan of the tokens", "anchors": ["src/IPhreeqcPhast/IPhreeqc/phreeqcpp/PBasic.cpp:1953-1976", "src/IPhreeqcPhast/IPhreeqc/phreeqcpp/PBasic.cpp:1995-2035"]}
{"id": "C158", "title": "A BASIC line is read as the tokens that it writes", "statement": "A line written with any blanks, letters of any size, numbers in any decimal form, and strings in either quote is read as the tokens it writes; a variable is known by its whole name; a line with a string that is not closed, or with unequal numbers of opening and closing parentheses, is an error; the size of letters outside strings never matters.", "quantifier": "for all rows of tokens and all written forms of them; for the size of letters, all texts", "why_tests_cant": "the ways to write a line are unbounded, and each token is found by its own scan of the characters", "anchors": ["src/IPhreeqcPhast/IPhreeqc/phreeqcpp/PBasic.cpp:568-900", "src/IPhreeqcPhast/IPhreeqc/phreeqcpp/PBasic.cpp:8120-8345"]}
{"id": "C159", "title": "A BASIC program is made of the lines of its text", "statement": "The text of a program, numbered lines separated by semicolons or line feeds with empty lines between, gives the program with, in the order of the numbers, the last line written under each number.", "quantifier": "for all texts of any number of lines, in any order, with any repetitions", "why_tests_cant": "the text is cut without regard to what it contains, and the numbers are read digit by digit", "anchors": ["src/IPhreeqcPhast/IPhreeqc/phreeqcpp/PBasic.cpp:88-173", "src/IPhreeqcPhast/IPhreeqc/phreeqcpp/PBasic.cpp:393-425", "src/IPhreeqcPhast/IPhreeqc/phreeqcpp/PBasic.cpp:1708-1765"]}
{"id": "C160", "title": "The text of a structured BASIC program does what it says", "statement": "A text that writes a structured program compiles without an error, and the compiled program ends with the variables and punched values that the meaning of its statements gives.", "quantifier": "for all structured programs, all ways to write them as text", "why_tests_cant": "it composes the reader, the program list and the interpreter", "anchors": ["src/IPhreeqcPhast/IPhreeqc/phreeqcpp/PBasic.cpp:88-173", "src/IPhreeqcPhast/IPhreeqc/phreeqcpp/PBasic.cpp:568-900", "src/IPhreeqcPhast/IPhreeqc/phreeqcpp/PBasic.cpp:6800-7127"]}
{"id": "C161", "title": "RUN_CELLS treats the cells of its list one after the other, from what they contain", "statement": "RUN_CELLS gives every listed cell the content that its own steps give, starting from its entities when its turn comes, with one list of rows of selected output in order; it ends early only when the chemistry of a cell fails; the outcome does not depend on leftovers of earlier calculations in the instance.", "quantifier": "for all lists of cells, all reactant maps, all chemistries, all records of use and saving", "why_tests_cant": "all cells share the slots -1 and -2 and one record of what is in use and where results go", "anchors": ["src/IPhreeqcPhast/IPhreeqc/phreeqcpp/ReadClass.cxx:675-850", "src/IPhreeqcPhast/IPhreeqc/phreeqcpp/kinetics.cpp:2401-2598", "src/IPhreeqcPhast/IPhreeqc/phreeqcpp/mainsubs.cpp:929-1014", "src/IPhreeqcPhast/IPhreeqc/phreeqcpp/mainsubs.cpp:1596-1735"]}
{"id": "C162", "title": "The result of a cell in RUN_CELLS does not depend on the other cells", "statement": "Each cell of RUN_CELLS is treated from what it contained before the call; listing the cells in another order, or over several calls, gives the same entities.", "quantifier": "for all lists of cells and reactant maps", "why_tests_cant": "a dependence shows only for particular pairs of cells in one list", "anchors": ["src/IPhreeqcPhast/IPhreeqc/phreeqcpp/ReadClass.cxx:675-850", "src/IPhreeqcPhast/IPhreeqc/phreeqcpp/step.cpp:616-689"]}
{"id": "C163", "title": "RUN_CELLS touches only the cells that it names", "statement": "Entities of other numbers, of listed numbers without solution or mix, and the prescribed reactants (MIX, REACTION, REACTION_TEMPERATURE, REACTION_PRESSURE) of listed cells are as before, and no reactant appears in or disappears from a cell, whether the run succeeds or fails.", "quantifier": "for all lists of cells, all reactant maps, all chemistries", "why_tests_cant": "saving goes through ranges of numbers kept from earlier calculations", "anchors": ["src/IPhreeqcPhast/IPhreeqc/phreeqcpp/ReadClass.cxx:703-844", "src/IPhreeqcPhast/IPhreeqc/phreeqcpp/mainsubs.cpp:929-1014"]}
{"id": "C164", "title": "The steps of a cell in RUN_CELLS", "statement": "A cell runs the largest number of steps its stepwise reactants ask for, with one row of selected output per step; without INCREMENTAL_REACTIONS the result is that of the last step alone from the given cell; with one step and a time step, the setting of INCREMENTAL_REACTIONS is of no consequence; the same input makes the same number of steps in every instance with the same definitions.", "quantifier": "for all numbers of steps, all cells", "why_tests_cant": "the results between two steps pass through the slot -2", "anchors": ["src/IPhreeqcPhast/IPhreeqc/phreeqcpp/ReadClass.cxx:721-833", "src/PhreeqcRM.cpp:9720", "src/PhreeqcRM.cpp:9873"]}
{"id": "C165", "title": "RUN_CELLS advances the time by its time step", "statement": "After a RUN_CELLS with -time_step t that succeeds, the time of the instance is the start time plus t, whatever the cells, the number of steps and the mode.", "quantifier": "for all lists of cells, start times and time steps", "why_tests_cant": "the time is advanced once, after the loop, by what the last cell left", "anchors": ["src/IPhreeqcPhast/IPhreeqc/phreeqcpp/ReadClass.cxx:692-712", "src/IPhreeqcPhast/IPhreeqc/phreeqcpp/ReadClass.cxx:845-848"]}
{"id": "C166", "title": "A RUN_CELLS definition is carried out once", "statement": "A RUN_CELLS block is carried out in the calculation that reads it and never again.", "quantifier": "for all lists of cells and all later calculations of the instance", "why_tests_cant": "it takes a failure in one call and an input in a later call", "anchors": ["src/IPhreeqcPhast/IPhreeqc/phreeqcpp/ReadClass.cxx:684-688", "src/IPhreeqcPhast/IPhreeqc/phreeqcpp/ReadClass.cxx:845-848", "src/IPhreeqcPhast/IPhreeqc/phreeqcpp/ReadClass.cxx:174-175"]}
{"id": "C167", "title": "A time step reacts every active cell exactly once", "statement": "RunCells reacts every active cell of a worker exactly once, from what the cell contains, over the time step of the module, with one row of selected output per cell; a cell that fails is as it was, and under error handler mode 3 the others are treated all the same.", "quantifier": "for all cells, chemistries, error handler modes, all states an earlier call may have left, any number of time steps", "why_tests_cant": "it takes a failure in one time step and a change of the cell before the next", "anchors": ["src/PhreeqcRM.cpp:10192-10491", "src/IPhreeqcPhast/IPhreeqc/phreeqcpp/ReadClass.cxx:675-850", "src/IPhreeqcPhast/IPhreeqc/phreeqcpp/ReadClass.cxx:174-175", "src/IPhreeqcPhast/IPhreeqc/IPhreeqc.cpp:1440"]}
{"id": "C168", "title": "RunCells gives the same cells and rows for every division among workers", "statement": "If one worker that holds all cells makes a time step, then the workers of any division of the cells make it too, every cell has the same content afterwards, and the selected output tables of the workers, one after the other, are the table of the single worker.", "quantifier": "for all divisions, numbers of workers, cells and chemistries, with and without accepted failures", "why_tests_cant": "each worker passes all its cells through the same working slots of one instance", "anchors": ["src/PhreeqcRM.cpp:10192-10491", "src/PhreeqcRM.cpp:9866-9899", "src/IPhreeqcPhast/IPhreeqc/phreeqcpp/ReadClass.cxx:675-850"]}
{"id": "C169", "title": "An accepted chemical equation balances", "statement": "The equation of a species is accepted if and only if the species that it defines has the coefficient one and charge and every element have the same amounts on both sides, within 1e-9; otherwise the input is refused.", "quantifier": "for all equations, any number of terms and formulas of any depth", "why_tests_cant": "the set of equations is infinite, and the elements pass through sorting and merging", "anchors": ["src/IPhreeqcPhast/IPhreeqc/phreeqcpp/parse.cpp:170-258", "src/IPhreeqcPhast/IPhreeqc/phreeqcpp/parse.cpp:13-169", "src/IPhreeqcPhast/IPhreeqc/phreeqcpp/structures.cpp:470-512"]}
{"id": "C170", "title": "A chemical equation is read as it is written", "statement": "Every term of an equation gives one entry with its coefficient, name and charge, wherever there is white space and in whichever form the charge is written; the species that is defined comes first, with its elements; the name of a species determines its charge.", "quantifier": "for all lists of terms on both sides, coefficients, names and charges", "why_tests_cant": "signs belong to charges or to the next term, depending on what follows", "anchors": ["src/IPhreeqcPhast/IPhreeqc/phreeqcpp/parse.cpp:13-169", "src/IPhreeqcPhast/IPhreeqc/phreeqcpp/parse.cpp:261-484", "src/IPhreeqcPhast/IPhreeqc/phreeqcpp/utilities.cpp:454-585"]}
{"id": "C171", "title": "Rewriting the reaction of a species to master species keeps it balanced", "statement": "The reaction of a species in terms of master species, which the program derives from the equations of the database, has the species first, has only master species behind it, each once, balances whatever all equations balance (elements, charge), and its constant is the one that these equations give; a species whose equation can be written out in at most twenty replacements is accepted.", "quantifier": "for all databases, all equations of any length, all chains of substitutions", "why_tests_cant": "the result depends on the order of substitutions and on what earlier reactions left in the shared work array", "anchors": ["src/IPhreeqcPhast/IPhreeqc/phreeqcpp/structures.cpp:1999-2172", "src/IPhreeqcPhast/IPhreeqc/phreeqcpp/tidy.cpp:714-773", "src/IPhreeqcPhast/IPhreeqc/phreeqcpp/tidy.cpp:871-920", "src/IPhreeqcPhast/IPhreeqc/phreeqcpp/tidy.cpp:2352-2388"]}
{"id": "C172", "title": "Rewriting the reaction of a phase keeps it balanced", "statement": "The reaction of a mineral or gas in terms of master species has the phase first, contains neither other phases nor species that are not master species, balances what the database balances, and has the constant that the equations give.", "quantifier": "for all databases, phases defined by other phases to any depth", "why_tests_cant": "phases may be defined by other solids and gases, which are replaced in place", "anchors": ["src/IPhreeqcPhast/IPhreeqc/phreeqcpp/structures.cpp:2051-2108", "src/IPhreeqcPhast/IPhreeqc/phreeqcpp/tidy.cpp:776-868", "src/IPhreeqcPhast/IPhreeqc/phreeqcpp/tidy.cpp:1493-1508"]}
{"id": "C173", "title": "Replacing inactive master species in a solution keeps reactions balanced", "statement": "When a master species does not take part in a calculation, the reaction of every species that contains it is rewritten in terms of those that do, electrons that come in are replaced by the redox couple, the reaction still balances and no inactive species is left.", "quantifier": "for all reactions, sets of active species and couples", "why_tests_cant": "each turn may bring in further inactive species", "anchors": ["src/IPhreeqcPhast/IPhreeqc/phreeqcpp/prep.cpp:2617-2699", "src/IPhreeqcPhast/IPhreeqc/phreeqcpp/prep.cpp:1124-1154"]}
{"id": "C174", "title": "The reaction of a redox couple", "statement": "The reaction of a redox couple is made from the reactions of its two valence states: the primary master species cancels, the electron comes first with coefficient -1, and the reaction balances; nothing is written outside the work array.", "quantifier": "for all pairs of valence states", "why_tests_cant": "the cancellation works by sorting and merging in place", "anchors": ["src/IPhreeqcPhast/IPhreeqc/phreeqcpp/prep.cpp:3082-3129", "src/IPhreeqcPhast/IPhreeqc/phreeqcpp/structures.cpp:2251-2283", "src/IPhreeqcPhast/IPhreeqc/phreeqcpp/structures.cpp:2368-2421"]}
{"id": "C175", "title": "The integration of kinetic rates covers the time step exactly", "statement": "When the integration of the kinetic reactants of a cell ends, the internal steps that were taken have positive lengths that add up to exactly the time step; the rate programs are only asked for times within the time step and for lengths of at most the time step; an early end is possible only as the single step of the whole length. The number of trials is limited by -bad_step_max.", "quantifier": "for all chemistries, rate programs, orders, tolerances, numbers of reactants, and sequences of steps that are turned down", "why_tests_cant": "the size of each step depends on the outcome of all earlier trials", "anchors": ["src/IPhreeqcPhast/IPhreeqc/phreeqcpp/kinetics.cpp:294-1131"]}
{"id": "C176", "title": "Kinetic reactions make and lose nothing", "statement": "In each internal step no more of a reactant reacts than there is and the amount left is not negative; over the whole integration what the cell gains is what the reactants lose (up to 1e-30 moles for each step and reactant); trials that are turned down leave nothing behind.", "quantifier": "for all chemistries that keep a quantity in each single calculation, all rates, orders and numbers of steps", "why_tests_cant": "minerals and solid solutions are changed in place by trials and must be set back on every way through the loop", "anchors": ["src/IPhreeqcPhast/IPhreeqc/phreeqcpp/kinetics.cpp:404-1071", "src/IPhreeqcPhast/IPhreeqc/phreeqcpp/kinetics.cpp:143-172"]}
{"id": "C177", "title": "Kinetic rates that need no approximation are integrated exactly", "statement": "Rates that do not change are integrated exactly with each order; with the full method rates that are polynomials in the time of degree at most four are integrated exactly, provided that no reactant is used up.", "quantifier": "for all rates of this kind, all lengths of the time step and all choices of internal steps", "why_tests_cant": "the weights and nodes enter in nested expressions and the steps are chosen by the program", "anchors": ["src/IPhreeqcPhast/IPhreeqc/phreeqcpp/kinetics.cpp:316-323", "src/IPhreeqcPhast/IPhreeqc/phreeqcpp/kinetics.cpp:486-1035"]}
{"id": "C178", "title": "Each internal step of the kinetics is a step of the Cash-Karp method within the tolerance", "statement": "The result of the integration is a sequence of steps, each starting from the cell as saved after the one before: six evaluations at the nodes of the method, each from that cell, with an estimated error of each reactant within its tolerance; or a single early end in which the evaluations agree within the tolerance.", "quantifier": "for all chemistries and rates that are proportional to the length of the step, all orders and sequences of steps that are turned down", "why_tests_cant": "the state is kept in shared storage that is changed by each evaluation, and the first evaluation is rescaled instead of repeated", "anchors": ["src/IPhreeqcPhast/IPhreeqc/phreeqcpp/kinetics.cpp:404-1071"]}
{"id": "C179", "title": "A reaction calculation starts from the sum of all parts of the cell", "statement": "When the elements of a cell are gathered for a reaction calculation, hydrogen, oxygen, charge and water of the solution to calculate from are the sums over solution or mixture, reaction, kinetic reaction, exchanger, surface and gas, plus what minerals and solid solutions gave; every other element agrees with that sum within the limit for traces.", "quantifier": "for all cells with any number of solutions in a mixture, reactants, exchangers, surfaces, gases, minerals and solid solutions", "why_tests_cant": "ten functions add to the same global sums, names with redox states count for their element, and small sums are set to zero", "anchors": ["src/IPhreeqcPhast/IPhreeqc/phreeqcpp/step.cpp:28-225", "src/IPhreeqcPhast/IPhreeqc/phreeqcpp/step.cpp:363-449", "src/IPhreeqcPhast/IPhreeqc/phreeqcpp/step.cpp:452-614", "src/IPhreeqcPhast/IPhreeqc/phreeqcpp/step.cpp:616-689"]}
{"id": "C180", "title": "A mass balance failure means that the cell cannot supply the element", "statement": "A step fails with a mass balance error exactly when an element would be negative even if all minerals and solid solutions that may dissolve were used up; after a failure minerals and solid solutions are as before, after a success no element is negative.", "quantifier": "for all cells, and all orders and amounts of minerals and components", "why_tests_cant": "what each solid gives depends on what those before it gave, and the decision is taken after all of them", "anchors": ["src/IPhreeqcPhast/IPhreeqc/phreeqcpp/step.cpp:140-225", "src/IPhreeqcPhast/IPhreeqc/phreeqcpp/step.cpp:751-888", "src/IPhreeqcPhast/IPhreeqc/phreeqcpp/step.cpp:1151-1247", "src/IPhreeqcPhast/IPhreeqc/phreeqcpp/step.cpp:1516-1566"]}
{"id": "C181", "title": "Minerals give only what is missing, and what they gave is accounted for", "statement": "Before a calculation a mineral or component loses moles only for one of its elements that would otherwise be missing, never more than it has and not more than brings that element to 1e-10 moles; a mineral that may only precipitate loses nothing; if some is left, none of its elements is missing; moles and recorded change add up to the moles it had.", "quantifier": "for all assemblages and solid solutions, in any order", "why_tests_cant": "depends on the order of the solids and on limits that no test reaches", "anchors": ["src/IPhreeqcPhast/IPhreeqc/phreeqcpp/step.cpp:751-857", "src/IPhreeqcPhast/IPhreeqc/phreeqcpp/step.cpp:1151-1247", "src/IPhreeqcPhast/IPhreeqc/phreeqcpp/step.cpp:1357-1440"]}
{"id": "C182", "title": "A mixture starts from water-weighted averages", "statement": "Temperature, pH, pe, ionic strength, activity of water, viscosity and density a calculation starts from are averages of the solutions that are mixed, weighted with the water each brings; solutions with a negative fraction do not count.", "quantifier": "for all mixtures of any number of solutions with any fractions", "why_tests_cant": "unbounded number of solutions; fractions that are not positive take another way through the code", "anchors": ["src/IPhreeqcPhast/IPhreeqc/phreeqcpp/step.cpp:616-689", "src/IPhreeqcPhast/IPhreeqc/phreeqcpp/step.cpp:363-449"]}
{"id": "C183", "title": "Elements that a solid needs and that are absent are marked", "statement": "The species whose activity is made very small before a calculation are those of all redox states of the elements that a mineral or component without moles needs and that are not in the cell.", "quantifier": "for all assemblages, solid solutions and data bases", "why_tests_cant": "nested loops over solids, their elements and all master species", "anchors": ["src/IPhreeqcPhast/IPhreeqc/phreeqcpp/step.cpp:1357-1440", "src/IPhreeqcPhast/IPhreeqc/phreeqcpp/step.cpp:1441-1515"]}
{"id": "C184", "title": "The limit for a component of a solid solution is what the system suffices for", "statement": "The largest step a component of a solid solution may take is the largest amount of it that the elements of the system suffice for.", "quantifier": "for all systems and compositions", "why_tests_cant": "minimum over an unbounded list of elements, each a sum over the whole system", "anchors": ["src/IPhreeqcPhast/IPhreeqc/phreeqcpp/step.cpp:226-307", "src/IPhreeqcPhast/IPhreeqc/phreeqcpp/model.cpp:3060-3090"]}
{"id": "C185", "title": "The equations of a cell do not depend on the cells calculated before", "statement": "The unknowns a worker sets up for a cell (which they are, the phases they stand for, their amounts) are those it would set up for that cell alone, whatever cells it calculated before and whatever these calculations left in the unknowns.", "quantifier": "for all sequences of cells of any length and all contents of the cells", "why_tests_cant": "the equations of the cell before are kept whenever the cell looks the same, so a fault shows only for certain pairs of neighbouring cells on one worker", "anchors": ["src/IPhreeqcPhast/IPhreeqc/phreeqcpp/prep.cpp:23-132", "src/IPhreeqcPhast/IPhreeqc/phreeqcpp/prep.cpp:135-354", "src/IPhreeqcPhast/IPhreeqc/phreeqcpp/prep.cpp:3131-3297", "src/IPhreeqcPhast/IPhreeqc/phreeqcpp/prep.cpp:4054-4095", "src/IPhreeqcPhast/IPhreeqc/phreeqcpp/prep.cpp:4179-4475"]}
{"id": "C186", "title": "Each exchange site is counted once in a calculation", "statement": "The exchanger a calculation uses holds each exchange site of the cell with the total of the whole system exactly once, however many components of the exchanger list the site, and nothing else.", "quantifier": "for all exchangers with any number of components and sites", "why_tests_cant": "loop over all master species and all components; sites shared by components", "anchors": ["src/IPhreeqcPhast/IPhreeqc/phreeqcpp/mainsubs.cpp:1737-1791", "src/IPhreeqcPhast/IPhreeqc/phreeqcpp/prep.cpp:3131-3207"]}
{"id": "C187", "title": "The equations are kept exactly for cells with the same elements, gases, solid solutions and minerals", "statement": "A worker keeps the equations of the cell before exactly when both cells have the same elements and exchange sites, the same gases of the same kind, solid solutions of the same names and the same minerals with the same alternative formulas.", "quantifier": "for all pairs of cells", "why_tests_cant": "a decision over unbounded lists of elements, gases and phases", "anchors": ["src/IPhreeqcPhast/IPhreeqc/phreeqcpp/prep.cpp:5575-5704", "src/IPhreeqcPhast/IPhreeqc/phreeqcpp/prep.cpp:5707-5905"]}
{"id": "C188", "title": "Values read on the root are those of the processes that have the cells", "statement": "In the MPI build, after any calls on the root, GetDensityCalculated, GetPressure, GetSaturationCalculated, GetSolutionVolume, GetTemperature and GetViscosity return IRM_OK in every execution and give for each grid cell of a reaction cell the value that the process that has the cell gives for this quantity.", "quantifier": "for all numbers of processes and cells, all divisions of the cells, all calls before, all orders of the steps of the processes", "why_tests_cant": "tests run with one process or compare whole results; cells move between processes when the load is rebalanced", "anchors": ["src/PhreeqcRM.cpp:3266-3313", "src/PhreeqcRM.cpp:3654-3711", "src/PhreeqcRM.cpp:4350-4381", "src/PhreeqcRM.cpp:4436-4493", "src/PhreeqcRM.cpp:4749-4776", "src/PhreeqcRM.cpp:5243-5275", "src/PhreeqcRM.cpp:5354-5399"]}
{"id": "C189", "title": "A C program with arrays behaves as the C++ program with vectors", "statement": "A program that uses the setters and getters of the C interface with one value per grid cell, and whose arrays have at least one entry per grid cell, gets the same result codes and the same values and leaves the modules in the same state as the program that calls the class with vectors; entries beyond the grid cells are not written and no undefined behaviour is added.", "quantifier": "for all programs of any length, any number of modules and arrays of any sizes, any number of grid cells above zero", "why_tests_cant": "a statement about all sequences of calls that share arrays and modules, and about memory that is not written", "anchors": ["src/RM_interface_C.cpp:1358-1387", "src/RM_interface_C.cpp:1769-1797", "src/RM_interface_C.cpp:2464-2481", "src/RM_interface_C.cpp:2629-2665", "src/RM_interface_C.cpp:2680-2697", "src/RM_interface_C.cpp:2723-2766", "src/RM_interface_C.cpp:2807-2824", "src/RM_interface_F.cpp:1020-1070", "src/RM_interface_F.cpp:1357-1381", "src/RM_interface_F.cpp:1462-1486"]}
{"id": "C190", "title": "RM_GetPorosity gives what RM_SetPorosity was given last", "statement": "RM_GetPorosity returns IRM_OK and the values of the last RM_SetPorosity for this module, or the default before the first, whatever calls and changes of the caller's arrays lie in between, and changes nothing else.", "quantifier": "for all sequences of calls in between, all modules and arrays", "why_tests_cant": "history of any length, arrays that are changed by the caller after they were given", "anchors": ["src/RM_interface_C.cpp:2629-2646", "src/RM_interface_F.cpp:1020-1044", "src/PhreeqcRM.cpp:11931-11940", "src/PhreeqcRM.cpp:4341-4346"]}
{"id": "C191", "title": "A getter of the C interface leaves no old values in the array", "statement": "After a getter with one value per grid cell has returned, the entries of all grid cells hold the values of the class function, or 1e30 if it failed.", "quantifier": "for all states of the module and contents of the array", "why_tests_cant": "the array of a test is new, so old values are not seen; a failure needs a vector that was set in another way", "anchors": ["src/RM_interface_F.cpp:1020-1044", "src/RM_interface_F.cpp:1046-1070", "src/RM_interface_F.cpp:1357-1381", "src/RM_interface_F.cpp:1462-1486", "src/RM_interface_C.cpp:1358-1387", "src/RM_interface_C.cpp:1769-1797"]}
{"id": "C192", "title": "A null pointer is refused", "statement": "A setter or getter of the C interface that is given a null pointer in place of an array with one value per grid cell returns IRM_INVALIDARG and changes nothing.", "quantifier": "for all functions with one value per grid cell and all states of the module", "why_tests_cant": "undefined behaviour need not show in a test", "anchors": ["src/RM_interface_C.cpp:1358-1387", "src/RM_interface_C.cpp:1769-1797", "src/RM_interface_C.cpp:2629-2646", "src/RM_interface_F.cpp:1020-1044", "src/RM_interface_F.cpp:1046-1070", "src/RM_interface_F.cpp:1357-1381", "src/RM_interface_F.cpp:1462-1486"]}
{"id": "C193", "title": "Logarithms of species that a cell does not have are not those of a species", "statement": "GetSpeciesLog10Molalities and GetSpeciesLog10Gammas give for every species of the solution of a cell its own value, and for a species that the solution does not have a value that no species has.", "quantifier": "for all sets of species of the module and of the calculation of the cell", "why_tests_cant": "cells of a test mostly have all elements; the numbers of species come from another table than their names", "anchors": ["src/PhreeqcRM.cpp:5037-5077", "src/PhreeqcRM.cpp:5179-5217", "src/IPhreeqcPhast/IPhreeqc/phreeqcpp/mainsubs.cpp:1404-1420"]}
{"id": "C194", "title": "The printout of a reaction step has one section per cell to be printed", "statement": "When no cell ends the run, RunCells writes to the output file exactly one section for each reaction cell one of whose grid cells has a print mask other than zero, in order of the reaction cells, with its grid cells and what became of it (printout, dry, failure); nothing when printing is off. The text does not depend on the number of workers.", "quantifier": "for all mappings, masks, saturations, numbers of workers, and results of the calculations of the cells", "why_tests_cant": "the text depends on the mapping, the mask and the distribution of cells; tests print with the identity mapping", "anchors": ["src/PhreeqcRM.cpp:9870-9911", "src/PhreeqcRM.cpp:10234-10256", "src/PhreeqcRM.cpp:10333-10476", "src/PhreeqcRM.h:4831-4839"]}
{"id": "C195", "title": "The printout of a step that fails is kept up to the failing cell", "statement": "When with error handler mode 0, 1 or 2 the calculation of a cell counts errors, RunCells reports an error and the output file holds, worker after worker, the complete sections of the cells to be printed before the failing cell, then the printout of the failing cell if it is to be printed, and nothing else.", "quantifier": "for all mappings, masks, saturations, distributions of cells and sets of failing cells", "why_tests_cant": "failures of the calculation are hard to bring about in a test, and each worker has its own", "anchors": ["src/PhreeqcRM.cpp:9902-9914", "src/PhreeqcRM.cpp:10378-10391", "src/IPhreeqcPhast/IPhreeqc/IPhreeqc.cpp:327-335"]}
{"id": "C196", "title": "Tables of the C interface hold the values of the class", "statement": "RM_GetConcentrations, RM_GetGasCompMoles, RM_GetGasCompPressures, RM_GetGasCompPhi, RM_GetSpeciesConcentrations, RM_GetSpeciesLog10Gammas, RM_GetSpeciesLog10Molalities and RM_GetSelectedOutput put the value of column i for grid cell j at place i*nxyz+j of the array, change nothing behind the table, and return the code of the class; when that is an error, or the pointer is null, the array is left as it is. They end with a result code in every state of the module.", "quantifier": "for all tables, numbers of cells, columns, arrays and states of the module", "why_tests_cant": "empty and very large tables are not in the tests; undefined behaviour need not show", "anchors": ["src/RM_interface_C.cpp:1299-1320", "src/RM_interface_C.cpp:1444-1510", "src/RM_interface_C.cpp:1684-1706", "src/RM_interface_C.cpp:1800-1821", "src/RM_interface_C.cpp:1853-1898", "src/PhreeqcRM.cpp:4640-4662"]}
{"id": "C197", "title": "Tables and mappings handed over in C arrive complete", "statement": "RM_SetConcentrations, RM_SetGasCompMoles and RM_SpeciesConcentrations2Module hand the class exactly the first columns times nxyz entries of the array. RM_GetBackwardMapping gives the number of grid cells of a reaction cell and the grid cells in order if the size given suffices, and otherwise returns IRM_INVALIDARG and changes nothing.", "quantifier": "for all tables, numbers of cells, columns, arrays, mappings and sizes", "why_tests_cant": "tests have few shapes of tables and enough room", "anchors": ["src/RM_interface_C.cpp:878-900", "src/RM_interface_C.cpp:2424-2441", "src/RM_interface_C.cpp:2543-2560", "src/RM_interface_C.cpp:2958-2977", "src/RM_interface_C.h:1577-1610"]}
{"id": "C198", "title": "The log and output files hold the messages since they were opened", "statement": "After OpenFiles succeeded for the prefix P set last, P.log.txt holds exactly the texts given to LogMessage, WarningMessage and ErrorMessage (and of refused calls of SetFilePrefix) since then, in order; P.chem.txt holds those given to OutputMessage, WarningMessage and ErrorMessage; no other file changes.", "quantifier": "for all histories of calls, prefixes, messages and existing files", "why_tests_cant": "The histories of openings, prefixes and messages are unbounded; a test looks at one session.", "anchors": ["src/PhreeqcRM.cpp:7495-7532", "src/PhreeqcRM.cpp:2777-2793", "src/PhreeqcRM.cpp:11781-11813", "src/PhreeqcRM.cpp:13021-13030", "src/PhreeqcRM.cpp:6999-7003", "src/PhreeqcRM.cpp:7535-7539"]}
{"id": "C199", "title": "No file changes while none is open", "statement": "After CloseFiles, and before the first OpenFiles, no message and no setting changes any file, until OpenFiles is called.", "quantifier": "for all histories before, and all calls other than OpenFiles after", "why_tests_cant": "Every order of messages, settings and closings has to be covered.", "anchors": ["src/PhreeqcRM.cpp:1018-1032", "src/PhreeqcRM.cpp:7495-7532"]}
{"id": "C200", "title": "A failing OpenFiles or SetFilePrefix has no effect on files", "statement": "When OpenFiles or SetFilePrefix returns an error, no file is created, emptied or left open, and the prefix is unchanged.", "quantifier": "for all histories, prefixes and sets of files that can be opened", "why_tests_cant": "Tests seldom make opening fail, and never in all combinations of the two files.", "anchors": ["src/PhreeqcRM.cpp:7495-7532", "src/PhreeqcRM.cpp:11781-11813"]}
{"id": "C201", "title": "The screen shows what the switches say", "statement": "Each call other than OpenFiles adds to the screen exactly its text if the switches set last by SetScreenOn and SetErrorOn allow it: ScreenMessage needs the first, warnings and errors need both; other calls add nothing.", "quantifier": "for all histories of calls and all messages", "why_tests_cant": "The switches depend on the whole history, and the screen is not captured by the tests.", "anchors": ["src/PhreeqcRM.cpp:11012-11016", "src/PhreeqcRM.cpp:12154-12167", "src/PhreeqcRM.cpp:11765-11778", "src/PhreeqcRM.cpp:2777-2793"]}
{"id": "C202", "title": "After a run the tables of the threads are checked to agree", "statement": "In builds without NDEBUG and with two or more threads, RunCells with selected output on succeeds in its check of selected output if and only if all threads have the same selected outputs with the same headings and each has in all one row per reaction cell.", "quantifier": "for all numbers of threads, selected outputs, columns and rows", "why_tests_cant": "threads whose tables differ do not occur in the tests, and the check is compiled into debug builds only", "anchors": ["src/PhreeqcRM.cpp:804-1008", "src/PhreeqcRM.cpp:9916-9918", "src/PhreeqcRM.cpp:272"]}
{"id": "C203", "title": "Boundary concentrations reach C callers complete and in place", "statement": "RM_InitialPhreeqc2Concentrations succeeds when the solutions exist and the arrays have n_boundary entries (concentrations: n_boundary times the number of components); the value at n_boundary * k + i is the concentration of component k in boundary solution i, mixed with the second solution if there is one; null lists mean no mixing; values behind are unchanged; bad instances and null arrays are reported and change nothing.", "quantifier": "for all numbers of entries, solutions, components, fractions and array contents", "why_tests_cant": "layouts with several entries and components, null lists and empty lists are not all tried, and writing too far need not show", "anchors": ["src/RM_interface_C.cpp:2037-2092", "src/PhreeqcRM.cpp:5945-6055", "src/RM_interface_C.h:3928-3984"]}
{"id": "C204", "title": "Initial conditions of C callers reach every cell", "statement": "RM_InitialPhreeqc2Module with arrays of 7 times the number of grid cells gives each cell, for each kind, what InitialPhreeqc2Module gives: nothing new where the first number is negative, else the mixture of the two reactants with the fraction given. A null second array means no second reactant and null fractions mean 1. Undefined numbers make it fail; bad instances and a null first array are reported and change nothing.", "quantifier": "for all grids, mappings, workers, reactants and array contents", "why_tests_cant": "combinations of null arrays, kinds and mixtures are too many, and reading too far need not show", "anchors": ["src/RM_interface_C.cpp:2136-2179", "src/PhreeqcRM.cpp:6214-6409", "src/PhreeqcRM.cpp:410-699"]}
{"id": "C205", "title": "Cells copied by C callers go to the listed grid cells only", "statement": "RM_InitialPhreeqcCell2Module(id, n, list, dim) copies cell n to the reaction cells of the first dim grid cells of the list and leaves all others as they are; any dim that is not negative is accepted, bad instances, a null list and an unknown cell are reported and change nothing.", "quantifier": "for all lists, dimensions, mappings and contents of workers", "why_tests_cant": "empty lists and arrays longer than dim are not tried", "anchors": ["src/RM_interface_C.cpp:2181-2203", "src/PhreeqcRM.cpp:6713-6890"]}
{"id": "C206", "title": "Boundary species reach C callers complete and in place", "statement": "RM_InitialPhreeqc2SpeciesConcentrations succeeds when the solutions exist and the arrays have n_boundary entries (concentrations: n_boundary times the number of species); the value at n_boundary * r + i is the concentration of species r in boundary solution i, mixed with the second solution if there is one; null lists mean no mixing; values behind are unchanged; bad instances, null arrays and a module without species are reported and change nothing.", "quantifier": "for all numbers of entries, solutions, species, fractions and array contents", "why_tests_cant": "layouts with several entries and species and null lists are not all tried", "anchors": ["src/RM_interface_C.cpp:2205-2261", "src/PhreeqcRM.cpp:6422-6535"]}
{"id": "C207", "title": "Numbers of one kind of reactant from C and Fortran reach every cell", "statement": "RM_InitialSolutions2Module and the six functions for other kinds (C and Fortran), with one number for each grid cell that is negative or defined, succeed, set that kind in exactly the reaction cells whose number is not negative, and leave all else as it was; bad instances and null arrays are reported and change nothing.", "quantifier": "for all kinds, grids, mappings, workers and array contents", "why_tests_cant": "seven functions, all mappings and arrays longer than the grid are not all tried", "anchors": ["src/RM_interface_F.cpp:1606-1716", "src/RM_interface_C.cpp:2094-2134", "src/PhreeqcRM.cpp:6058-6212"]}
{"id": "C208", "title": "Initial conditions are the same from C and Fortran", "statement": "RMF_InitialPhreeqc2Module, RMF_InitialPhreeqc2ModuleMix and RMF_InitialPhreeqcCell2Module have the result and the effect of the C functions with the same arrays (null for arrays that Fortran does not give).", "quantifier": "for all instances, arrays, grids and contents", "why_tests_cant": "equality of two interfaces on all inputs cannot be enumerated", "anchors": ["src/RM_interface_F.cpp:1718-1816", "src/RM_interface_C.cpp:2136-2203"]}
{"id": "C209", "title": "The lists of species belong together", "statement": "After any sequence of calls of FindComponents, failed ones included, GetSpeciesNames, GetSpeciesZ, GetSpeciesD25 and GetSpeciesStoichiometry have GetSpeciesCount entries each, one for every species in the model of the last solution made and no other, in the order of the database; entry r of all is of the same species, the stoichiometry has its elements and its charge, and GetSpeciesConcentrations gives the amount of the species named at r in column r.", "quantifier": "for all databases, component lists, histories of calls, grids and solutions", "why_tests_cant": "which species are in the model, and so the shift between number and position, depends on the database and the components", "anchors": ["src/PhreeqcRM.cpp:2906-2980", "src/PhreeqcRM.h:2444-2721", "src/IPhreeqcPhast/IPhreeqc/phreeqcpp/prep.cpp:1116-1142", "src/IPhreeqcPhast/IPhreeqc/phreeqcpp/tidy.cpp:2277-2279"]}
{"id": "C210", "title": "Names of saturation indices are unique", "statement": "After any sequence of calls of FindComponents, GetSINames lists each phase that is in the model once and no other phase, and GetSICount is the number of these phases.", "quantifier": "for all databases, phases and histories of calls", "why_tests_cant": "only histories with repeated calls show what is left from earlier ones", "anchors": ["src/PhreeqcRM.cpp:2963-2969", "src/PhreeqcRM.h:2202-2236"]}
{"id": "C211", "title": "Python gives the stoichiometry of each species", "statement": "After any sequence of calls of FindComponents, GetSpeciesStoichiometry of the Python class returns a dictionary with one entry for each aqueous species in the model and no other, and the entry holds exactly the elements of that species with their coefficients and its charge.", "quantifier": "for all databases with distinct species names, component lists and histories of calls", "why_tests_cant": "the table is flattened in C++ and split again in Python; an offset shows only for particular numbers of elements", "anchors": ["swig/PhreeqcRM.i:187-202", "src/PhreeqcRM.cpp:5220-5237", "src/PhreeqcRM.cpp:2936-2945"]}
{"id": "C212", "title": "Python gives the backward mapping", "statement": "GetBackwardMapping of the Python class returns a dictionary that gives for each reaction cell the list of its grid cells as GetBackwardMapping of the C++ class, in the same order, and has no entry for other numbers.", "quantifier": "for all mappings, with any number of grid cells in a reaction cell", "why_tests_cant": "the lists of different lengths are flattened and split again", "anchors": ["swig/PhreeqcRM.i:203-216", "src/PhreeqcRM.cpp:3440-3453"]}
{"id": "C213", "title": "Arrays and numbers set from Python arrive", "statement": "After initialize, set_value of the Python class gives the array passed for a listed input variable, when it has one value for each item, or the number passed for Time and TimeStep, to the setter of the module; an array of another length changes nothing in the module.", "quantifier": "for all modules, histories of BMI calls, variables and values", "why_tests_cant": "the branch taken depends on the sizes found at run time; grids of one cell take the branch for numbers", "anchors": ["swig/PhreeqcRM.i:881-906", "src/BMIPhreeqcRM.cpp:1141-1162", "src/BMIPhreeqcRM.cpp:1207-1238"]}
{"id": "C214", "title": "The file prefix can be set from Python", "statement": "After initialize, set_value(\"FilePrefix\", [x]) of the Python class sets the prefix to x, whatever the prefix was.", "quantifier": "for all modules, histories of BMI calls and prefixes", "why_tests_cant": "the sizes divided are those of the prefix in force, which depends on the history", "anchors": ["swig/PhreeqcRM.i:881-906", "src/VarManager.cpp:504-558"]}
{"id": "C215", "title": "Charges and diffusion coefficients of C callers", "statement": "RM_GetSpeciesZ and RM_GetSpeciesD25 return IRM_OK for every module and every array with RM_GetSpeciesCount entries or more; entry r is then the charge or diffusion coefficient of the species whose name is at r, and the rest of the array is as before.", "quantifier": "for all databases, histories of calls of FindComponents, and arrays", "why_tests_cant": "the length of the vectors copied and the species at each position depend on the database and the history", "anchors": ["src/RM_interface_C.cpp:1835-1851", "src/RM_interface_C.cpp:1933-1949", "src/PhreeqcRM.cpp:2931-2945"]}
