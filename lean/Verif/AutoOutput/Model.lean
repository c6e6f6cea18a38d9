import Verif.OMap.Basic
import Verif.OMap.Set
import Verif.BMI.Model

/-!
# Automatic output variables of the BMI layer

`VarManager::GenerateAutoOutputVars` (`/repo/src/VarManager.cpp:1632-2366`) makes a list of BMI
output variables from the lists `FindComponents` has collected, defines `SELECTED_OUTPUT 333`
and `USER_PUNCH 333` with one heading and one `PUNCH` per variable, and remembers a column for
each name. `BMIPhreeqcRM::GetValue` looks the name up and copies that column of the table.
-/

namespace Verif.AutoOutput

open Verif.OMap

abbrev Name := List Char

/-- `lower`, as used in every lookup. -/
abbrev lower (s : Name) : Name := BMI.lower s

/-- `enum class OUTPUTVARS` in its order, which is the order of the `std::map`
`AutoOutputVarsDefs`, `/repo/src/RMVARS.h:47-61`. -/
inductive OutVar
  | AddOutputVars
  | SolutionProperties
  | SolutionTotalMolalities
  | ExchangeMolalities
  | SurfaceMolalities
  | EquilibriumPhases
  | Gases
  | KineticReactants
  | SolidSolutions
  | CalculateValues
  | SolutionActivities
  | SolutionMolalities
  | SaturationIndices
  deriving DecidableEq, Repr

def OutVar.all : List OutVar :=
  [.AddOutputVars, .SolutionProperties, .SolutionTotalMolalities, .ExchangeMolalities,
   .SurfaceMolalities, .EquilibriumPhases, .Gases, .KineticReactants, .SolidSolutions,
   .CalculateValues, .SolutionActivities, .SolutionMolalities, .SaturationIndices]

/-- `OutputVarsEnumMap`, `/repo/src/VarManager.cpp:89-101`: the option names. -/
def OutVar.option : OutVar → String
  | .AddOutputVars => "addoutputvars"
  | .SolutionProperties => "solutionproperties"
  | .SolutionTotalMolalities => "solutiontotalmolalities"
  | .ExchangeMolalities => "exchangemolalities"
  | .SurfaceMolalities => "surfacemolalities"
  | .EquilibriumPhases => "equilibriumphases"
  | .Gases => "gases"
  | .KineticReactants => "kineticreactants"
  | .SolidSolutions => "solidsolutions"
  | .CalculateValues => "calculatevalues"
  | .SolutionActivities => "solutionactivities"
  | .SolutionMolalities => "solutionmolalities"
  | .SaturationIndices => "saturationindices"

/-- `GetOutputVarsEnum`, `/repo/src/VarManager.cpp:2418-2428`. -/
def getOutVar (name : Name) : Option OutVar :=
  OutVar.all.find? (fun v => v.option.toList == lower name)

/-- The defaults, `/repo/src/VarManager.cpp:102-115`. -/
def defaultDefs : OutVar → Name
  | .SolutionMolalities | .SolutionActivities | .SaturationIndices => "false".toList
  | _ => "true".toList

/-- The four results of `ProcessAutoOutputVarDef`, `/repo/src/VarManager.cpp:2367-2385`, where
`-1` (flag `tf_only`) and `2` are both `other`. -/
inductive Setting
  | off | on | other
  deriving DecidableEq, Repr

def processDef (d : Name) : Setting :=
  if lower d = "false".toList then .off
  else if lower d = "true".toList then .on
  else .other

/-- `std::isspace` in the "C" locale. -/
def isSpace (c : Char) : Bool :=
  c = ' ' || c = '\t' || c = '\n' || c = '\r' || c = '\x0b' || c = '\x0c'

/-- `trim`, `/repo/src/IPhreeqcPhast/IPhreeqc/phreeqcpp/common/Parser.h:305-308`. -/
def trim (s : Name) : Name :=
  ((s.reverse.dropWhile isSpace).reverse).dropWhile isSpace

/-- Splitting at blanks as `std::getline(ss, a_token, ' ')` does. -/
def splitBlank (acc : Name) : Name → List Name
  | [] => [acc]
  | c :: s => if c = ' ' then acc :: splitBlank [] s else splitBlank (acc ++ [c]) s

/-- `tokenize`, `/repo/src/VarManager.cpp:2386-2409`. (`getline` gives no piece after a final
blank; that piece is empty and is not kept either way.) -/
def tokenize (d : Name) : List Name :=
  OSet.insAll []
    (((splitBlank [] (d.map (fun c => if c = '\t' ∨ c = ',' then ' ' else c))).map trim).filter
      (fun t => t ≠ []))

/-- What `FindComponents` has collected (`/repo/src/PhreeqcRM.cpp:2824-3262`) and the
generation reads. Species of exchangers and surfaces and components of solid solutions are
stored in two parallel vectors filled in the same steps (3119-3120, 3079-3080, 3249-3253);
here they are lists of pairs (item, owner). `calcs` are the keys of the `CALCULATE_VALUES` map
of worker 0. -/
structure Lists where
  elements : List Name
  species  : List Name
  exchange : List (Name × Name)
  surface  : List (Name × Name)
  equi     : List Name
  gases    : List Name
  kin      : List Name
  ss       : List (Name × Name)
  calcs    : List Name
  si       : List Name
  deriving DecidableEq

/-- The families of generated variables. -/
inductive Fam
  | ph | pe | alk | mu | water | charge | pct | sc
  | totMol | specA | specM | satIdx
  | exchTot | exchSpec | surfTot | surfSpec
  | equi | equiDelta
  | gasVol | gasMol | gasP | gasPhi
  | kin | kinDelta | ss | calc
  deriving DecidableEq, Repr

/-- One generated variable: its family, the exchanger, surface or solid solution it belongs to
if the name shows it, and the item. -/
structure Entry where
  fam   : Fam
  owner : Option Name
  item  : Name
  deriving DecidableEq

/-- The fixed beginning of the names; the whole name for those without item. Lines of
`/repo/src/VarManager.cpp` at each. -/
def Fam.stem : Fam → String
  | .ph => "solution_ph"                                       -- 1662
  | .pe => "solution_pe"                                       -- 1676
  | .alk => "solution_alkalinity"                              -- 1690
  | .mu => "solution_ionic_strength"                           -- 1704
  | .water => "solution_water_mass"                            -- 1718
  | .charge => "solution_charge_balance"                       -- 1732
  | .pct => "solution_percent_error"                           -- 1746
  | .sc => "solution_specific_conductance"                     -- 1760
  | .totMol => "solution_total_molality_"                      -- 1797
  | .specM => "solution_species_log_molality_"                 -- 1835
  | .specA => "solution_species_log_activity_"                 -- 1873
  | .exchTot => "exchange_total_molality_"                     -- 1916
  | .exchSpec => "exchange_species_log_molality_"              -- 1933
  | .surfTot => "surface_total_molality_"                      -- 1981
  | .surfSpec => "surface_species_log_molality_"               -- 1998
  | .equi => "equilibrium_phases_moles_"                       -- 2042
  | .equiDelta => "equilibrium_phases_delta_moles_"            -- 2056
  | .satIdx => "solution_saturation_index_"                    -- 2095
  | .gasVol => "gas_phase_volume"                              -- 2133
  | .gasMol => "gas_phase_moles_"                              -- 2151
  | .gasP => "gas_phase_pressure_"                             -- 2165
  | .gasPhi => "gas_phase_phi_"                                -- 2179
  | .kin => "kinetic_reaction_moles_"                          -- 2219
  | .kinDelta => "kinetic_reaction_delta_moles_"               -- 2233
  | .ss => "solid_solution_moles_"                             -- 2274
  | .calc => "calculate_value_"                                -- 2318

/-- For the three families with an owner: what comes before it and between it and the item,
`/repo/src/VarManager.cpp:1937, 2002, 2278`. -/
def Fam.around : Fam → Option (String × String)
  | .exchSpec => some ("exchange_", "_species_log_molality_")
  | .surfSpec => some ("surface_", "_species_log_molality_")
  | .ss => some ("solid_solution_", "_moles_")
  | _ => none

/-- The name of a generated variable, which is also its heading. -/
def Entry.name (e : Entry) : Name :=
  match e.owner, e.fam.around with
  | some x, some (a, b) => a.toList ++ (x ++ (b.toList ++ e.item))
  | _, _ => e.fam.stem.toList ++ e.item

/-- The BASIC functions used in the `PUNCH` lines. -/
inductive Fn
  | LA | ALK | MU | TOT | CHARGE_PER_WATER | PERCENT_ERROR | SC | LM | EQUI | EQUI_DELTA | SI
  | SYS_GAS_VM | GAS | PR_P | PR_PHI | KIN | KIN_DELTA | S_S | CALC_VALUE
  | NEG_LA
  deriving DecidableEq, Repr

/-- What the `PUNCH` line of a variable computes: a function and its argument
(`CHARGE_BALANCE / TOT('water')`, `SYS('gas') * GAS_VM` and `-LA(..)` count as functions). -/
structure Expr where
  fn  : Fn
  arg : Name
  deriving DecidableEq

/-- The `PUNCH` lines, a few lines below the names. -/
def Entry.expr (e : Entry) : Expr :=
  match e.fam with
  | .ph => ⟨.NEG_LA, "H+".toList⟩
  | .pe => ⟨.NEG_LA, "e-".toList⟩
  | .alk => ⟨.ALK, []⟩
  | .mu => ⟨.MU, []⟩
  | .water => ⟨.TOT, "water".toList⟩
  | .charge => ⟨.CHARGE_PER_WATER, []⟩
  | .pct => ⟨.PERCENT_ERROR, []⟩
  | .sc => ⟨.SC, []⟩
  | .totMol | .exchTot | .surfTot => ⟨.TOT, e.item⟩
  | .specM | .exchSpec | .surfSpec => ⟨.LM, e.item⟩
  | .specA => ⟨.LA, e.item⟩
  | .equi => ⟨.EQUI, e.item⟩
  | .equiDelta => ⟨.EQUI_DELTA, e.item⟩
  | .satIdx => ⟨.SI, e.item⟩
  | .gasVol => ⟨.SYS_GAS_VM, []⟩
  | .gasMol => ⟨.GAS, e.item⟩
  | .gasP => ⟨.PR_P, e.item⟩
  | .gasPhi => ⟨.PR_PHI, e.item⟩
  | .kin => ⟨.KIN, e.item⟩
  | .kinDelta => ⟨.KIN_DELTA, e.item⟩
  | .ss => ⟨.S_S, e.item⟩
  | .calc => ⟨.CALC_VALUE, e.item⟩

/-- The `item_set` of the families that read one list: nothing when off, the whole list when
on, the given words otherwise. -/
def items (d : Name) (l : List Name) : List Name :=
  match processDef d with
  | .off => []
  | .on => OSet.insAll [] l
  | .other => tokenize d

/-- `item_map`: the owner of each item; a later pair replaces an earlier one. -/
def owners (l : List (Name × Name)) : SMap Name Name :=
  l.foldl (fun m p => OMap.insert m p.1 p.2) []

/-- Exchange and surface, `/repo/src/VarManager.cpp:1887-1951, 1952-2016`: one total for each
owner, also when words are given; then the species, with the owner in the name only when the
list was used. -/
def owned (tot spec : Fam) (d : Name) (l : List (Name × Name)) : List Entry :=
  let totals := (OSet.insAll [] (l.map Prod.snd)).map (fun x => (⟨tot, none, x⟩ : Entry))
  match processDef d with
  | .off => []
  | .on => totals ++ (OSet.insAll [] (l.map Prod.fst)).map
      (fun i => (⟨spec, find (owners l) i, i⟩ : Entry))
  | .other => totals ++ (tokenize d).map (fun i => (⟨spec, none, i⟩ : Entry))

/-- The variables one option gives, `/repo/src/VarManager.cpp:1646-2338`. -/
def sectionOf (L : Lists) (d : Name) : OutVar → List Entry
  | .AddOutputVars => []
  | .SolutionProperties =>
    if processDef d = .on then
      [⟨.ph, none, []⟩, ⟨.pe, none, []⟩, ⟨.alk, none, []⟩, ⟨.mu, none, []⟩, ⟨.water, none, []⟩,
       ⟨.charge, none, []⟩, ⟨.pct, none, []⟩, ⟨.sc, none, []⟩]
    else []
  | .SolutionTotalMolalities => (items d L.elements).map (fun i => ⟨.totMol, none, i⟩)
  | .SolutionMolalities => (items d L.species).map (fun i => ⟨.specM, none, i⟩)
  | .SolutionActivities => (items d L.species).map (fun i => ⟨.specA, none, i⟩)
  | .ExchangeMolalities => owned .exchTot .exchSpec d L.exchange
  | .SurfaceMolalities => owned .surfTot .surfSpec d L.surface
  | .EquilibriumPhases =>
    (items d L.equi).flatMap (fun i => [⟨.equi, none, i⟩, ⟨.equiDelta, none, i⟩])
  | .SaturationIndices => (items d L.si).map (fun i => ⟨.satIdx, none, i⟩)
  | .Gases =>
    (if items d L.gases ≠ [] then [⟨.gasVol, none, []⟩] else []) ++
      (items d L.gases).flatMap
        (fun i => [⟨.gasMol, none, i⟩, ⟨.gasP, none, i⟩, ⟨.gasPhi, none, i⟩])
  | .KineticReactants =>
    (items d L.kin).flatMap (fun i => [⟨.kin, none, i⟩, ⟨.kinDelta, none, i⟩])
  | .SolidSolutions =>
    match processDef d with
    | .off => []
    | .on => (OSet.insAll [] (L.ss.map Prod.fst)).map (fun i => ⟨.ss, find (owners L.ss) i, i⟩)
    | .other => (tokenize d).map (fun i => ⟨.ss, none, i⟩)
  | .CalculateValues => (items d L.calcs).map (fun i => ⟨.calc, none, i⟩)

/-- All generated variables in the order of their columns. -/
def entries (L : Lists) (defs : OutVar → Name) : List Entry :=
  OutVar.all.flatMap (fun v => sectionOf L (defs v) v)

/-- The state concerned. `vars` is `AutoOutputVars`: lower-case name to (name, column).
`punch` is what `USER_PUNCH 333` of the workers computes; `table` what `CSelectedOutputMap[333]`
of the workers holds, as grid columns (see below); `data` is `BMISelectedOutput`. -/
structure S where
  defs  : OutVar → Name
  vars  : SMap Name (Name × Nat)
  punch : List Entry
  table : Option (List (Name × List ℚ))
  data  : List ℚ

def S.init : S := ⟨defaultDefs, [], [], none, []⟩

/-- `AddOutputVars`, `/repo/src/VarManager.cpp:2410-2417`. Unknown options do nothing. -/
def addOutputVars (option d : Name) (s : S) : S :=
  match getOutVar option with
  | none => s
  | some v => { s with defs := fun w => if w = v then d else s.defs w }

/-- The assignments `AutoOutputVars[name_lc] = bv` with `bv.SetColumn(column++)`. -/
def addVars (vars : SMap Name (Name × Nat)) (col : Nat) : List Entry → SMap Name (Name × Nat)
  | [] => vars
  | e :: es => addVars (OMap.insert vars (lower e.name) (e.name, col)) (col + 1) es

/-- `GenerateAutoOutputVars`, `/repo/src/VarManager.cpp:1632-2366`. The map is not cleared
(line 1641 is commented out). The workers' definition is replaced when there is at least one
heading. Simplification: the `RunString` succeeds and the reader gets back the headings and
expressions written, that is, the names contain no blank, quote, `;`, `#` or `\`. User number
333 is not 1, so the block has no columns of its own
(`/repo/src/IPhreeqcPhast/IPhreeqc/phreeqcpp/read.cpp:4869-4878`). -/
def generate (L : Lists) (s : S) : S :=
  if processDef (s.defs .AddOutputVars) ≠ .on then s
  else
    { s with
      vars := addVars s.vars 0 (entries L s.defs)
      punch := if entries L s.defs = [] then s.punch else entries L s.defs }

/-- `PushBack` of one value under its heading: columns are found by heading
(`/repo/src/IPhreeqcPhast/IPhreeqc/CSelectedOutput.cpp:126-174`, see `Verif.SelOut`). -/
def pushCol (cols : List (Name × List ℚ)) (h : Name) (v : List ℚ) : List (Name × List ℚ) :=
  if h ∈ cols.map Prod.fst then cols.map (fun p => if p.1 = h then (h, v) else p)
  else cols ++ [(h, v)]

/-- The columns of the table after all `PUNCH` lines. -/
def columns (nxyz : Nat) (w : Expr → Nat → ℚ) (es : List Entry) : List (Name × List ℚ) :=
  es.foldl (fun cols e => pushCol cols e.name ((List.range nxyz).map (w e.expr))) []

/-- `RunCells` as far as it matters here: the tables are cleared and, if selected output is on,
filled again (`/repo/src/PhreeqcRM.cpp:10259-10312`); then `BMISelectedOutput` is cleared (9940).
`w e i` is the value `GetSelectedOutput` reports in grid cell `i` for expression `e` (C24-C26:
the value of the cell's reaction cell; 0 for cells without one, as the vector is always empty
when it is filled). -/
def runCells (nxyz : Nat) (on : Bool) (w : Expr → Nat → ℚ) (s : S) : S :=
  { s with
    table := if on ∧ s.punch ≠ [] then some (columns nxyz w s.punch) else none
    data := [] }

/-- The `BMISelectedOutput` a call of `GetValue` uses: fetched when it is empty,
`/repo/src/BMIPhreeqcRM.cpp:948-954`. When there is no table `GetSelectedOutput` fails and the
vector stays empty; the code is not looked at (error handler mode 0). -/
def fetch (s : S) : List ℚ :=
  if s.data = [] then
    match s.table with
    | none => []
    | some t => t.flatMap Prod.snd
  else s.data

/-- `GetValue(name, std::vector<double>&)` for a name that is not one of the fixed variables,
`/repo/src/BMIPhreeqcRM.cpp:940-963` (the `double*` and `void*` versions, 813-833 and 686-706,
are the same). The copy starts at `&BMISelectedOutput[column * nxyz]` and takes `nxyz` values:
undefined behaviour unless all of them exist. -/
def getValue (nxyz : Nat) (name : Name) (s : S) : Out (List ℚ) × S :=
  match find s.vars (lower name) with
  | none => (.throw, s)
  | some (_, col) =>
    let d := fetch s
    (if (col + 1) * nxyz ≤ d.length then .ok ((d.drop (col * nxyz)).take nxyz) else .ub,
     { s with data := d })

/-- The automatic part of `GetOutputVarNames`, `/repo/src/BMIPhreeqcRM.cpp:399-403`. -/
def autoNames (s : S) : List Name := s.vars.map (fun p => p.2.1)

end Verif.AutoOutput
