import Verif.Raw.Exchange
import Verif.Raw.Solution
import Verif.Raw.Gas
import Verif.Raw.Blocks
import Verif.Raw.Kinetics
import Verif.Raw.PP
import Verif.Raw.SS
import Verif.Raw.Surface

/-!
# A whole dump file

Model of the writing of a dump file (`Phreeqc::dump_ostream`,
`/repo/src/IPhreeqcPhast/IPhreeqc/phreeqcpp/ReadClass.cxx:854-1097`) and of its reading as input
(`Phreeqc::read_input`, `read.cpp:31-405`).
-/

namespace Verif.Raw

open Verif.OMap Verif.NameDouble

/-- The maps `Rxn_solution_map`, .. of a `Phreeqc` object. -/
structure Maps where
  solutions : SMap Int Solution
  pps : SMap Int PPAssemblage
  exchanges : SMap Int Exchange
  surfaces : SMap Int Surface
  sss : SMap Int SSAssemblage
  gases : SMap Int GasPhase
  kinetics : SMap Int Kinetics
  mixes : SMap Int Mix
  reactions : SMap Int Reaction
  temperatures : SMap Int StepList
  pressures : SMap Int StepList

/-- What `dump_info` holds for one kind of entity: the switch and the set of numbers. -/
structure Pick where
  on : Bool
  nums : List Int

/-- `dump_info`. -/
structure Picks where
  solutions : Pick
  pps : Pick
  exchanges : Pick
  surfaces : Pick
  sss : Pick
  gases : Pick
  kinetics : Pick
  mixes : Pick
  reactions : Pick
  temperatures : Pick
  pressures : Pick

/-- The entities of one kind whose `dump_raw` is called: all that are in the map
(`Utilities::Rxn_dump_raw`, Phreeqc.h:1897-1910) if no numbers are given, otherwise those with the
numbers (for example ReadClass.cxx:858-876). -/
def chosen {β : Type} (head : β → Head) (p : Pick) (m : SMap Int β) : List β :=
  if p.on then
    if p.nums = [] then
      (m.filter (fun e => decide (0 ≤ e.1) && decide (0 ≤ (head e.2).nUser))).map Prod.snd
    else (p.nums.filterMap (find m)).filter (fun x => decide (0 ≤ (head x).nUser))
  else []

/-- The lines that switch off reactions (ReadClass.cxx:1089-1092). -/
def useLines : List Line :=
  [[.word "USE".toList, .word "mix".toList, .word "none".toList],
   [.word "USE".toList, .word "reaction".toList, .word "none".toList],
   [.word "USE".toList, .word "reaction_temperature".toList, .word "none".toList],
   [.word "USE".toList, .word "reaction_pressure".toList, .word "none".toList]]

/-- `Phreeqc::dump_ostream` (ReadClass.cxx:854-1097). -/
def dumpFile (rnd : ℚ → ℚ) (p : Picks) (m : Maps) : List Line :=
  (chosen Solution.head p.solutions m.solutions).flatMap (dumpSolution rnd)
  ++ ((chosen PPAssemblage.head p.pps m.pps).flatMap (dumpPP rnd)
  ++ ((chosen Exchange.head p.exchanges m.exchanges).flatMap (dumpExchange rnd)
  ++ ((chosen Surface.head p.surfaces m.surfaces).flatMap (dumpSurface rnd)
  ++ ((chosen SSAssemblage.head p.sss m.sss).flatMap (dumpSSAssemblage rnd)
  ++ ((chosen GasPhase.head p.gases m.gases).flatMap (dumpGasPhase rnd)
  ++ ((chosen Kinetics.head p.kinetics m.kinetics).flatMap (dumpKinetics rnd)
  ++ ((chosen Mix.head p.mixes m.mixes).flatMap (dumpMix rnd)
  ++ ((chosen Reaction.head p.reactions m.reactions).flatMap (dumpReaction rnd)
  ++ ((chosen StepList.head p.temperatures m.temperatures).flatMap (dumpTemperature rnd)
  ++ ((chosen StepList.head p.pressures m.pressures).flatMap (dumpPressure rnd)
  ++ useLines))))))))))

/-- State of `read_input`: the maps and the number of errors. -/
structure FileState where
  maps : Maps
  errs : Nat

/-- A line that starts with a keyword. -/
def isKeyLine : Line → Bool
  | .word w :: _ => isKeyword w
  | _ => false

/-- `case Keywords::KEY_NONE` of `read_input` (read.cpp:107-114): lines up to the next keyword are
passed over with a warning. -/
def skip (ls : List Line) : List Line := ls.dropWhile (fun l => !isKeyLine l)

/-- `Utilities::Rxn_read_raw` (Phreeqc.h:1988-2012) for one kind. The entity is stored although
errors were reported: these are counted by the parser, not by the entity. No copies are made: the
readers set `n_user_end` to `n_user` as the header holds one number. -/
def store {β : Type} (read : List Line → β × Nat × List Line) (head : β → Head)
    (get : Maps → SMap Int β) (set : SMap Int β → Maps → Maps) (ls : List Line) (s : FileState) :
    FileState × List Line :=
  let r := read ls
  (⟨set (insert (get s.maps) (head r.1).nUser r.1) s.maps, s.errs + r.2.1⟩, skip r.2.2)

/-- One turn of the loop in `read_input` (read.cpp:91-401). `none` is the end of the simulation. Of the
data blocks only those of a dump file are modelled; `USE` (read.cpp:6123-6339) concerns the calculation
that follows and is passed over. -/
def block (l : Line) (ls : List Line) (s : FileState) : Option (FileState × List Line) :=
  match l with
  | .word w :: _ =>
    if lower w = "end".toList then none
    else if lower w = "solution_raw".toList then
      some (store readSolution Solution.head Maps.solutions
        (fun t m => { m with solutions := t }) (l :: ls) s)
    else if lower w = "exchange_raw".toList then
      some (store readExchange Exchange.head Maps.exchanges
        (fun t m => { m with exchanges := t }) (l :: ls) s)
    else if lower w = "surface_raw".toList then
      some (store readSurface Surface.head Maps.surfaces
        (fun t m => { m with surfaces := t }) (l :: ls) s)
    else if lower w = "equilibrium_phases_raw".toList then
      some (store readPP PPAssemblage.head Maps.pps (fun t m => { m with pps := t }) (l :: ls) s)
    else if lower w = "kinetics_raw".toList then
      some (store readKinetics Kinetics.head Maps.kinetics
        (fun t m => { m with kinetics := t }) (l :: ls) s)
    else if lower w = "solid_solutions_raw".toList then
      some (store readSSAssemblage SSAssemblage.head Maps.sss
        (fun t m => { m with sss := t }) (l :: ls) s)
    else if lower w = "gas_phase_raw".toList then
      some (store readGasPhase GasPhase.head Maps.gases
        (fun t m => { m with gases := t }) (l :: ls) s)
    else if lower w = "reaction_raw".toList then
      some (store readReaction Reaction.head Maps.reactions
        (fun t m => { m with reactions := t }) (l :: ls) s)
    else if lower w = "mix_raw".toList then
      some (store readMix Mix.head Maps.mixes (fun t m => { m with mixes := t }) (l :: ls) s)
    else if lower w = "reaction_temperature_raw".toList then
      some (store (readStepList temperatureOpts) StepList.head Maps.temperatures
        (fun t m => { m with temperatures := t }) (l :: ls) s)
    else if lower w = "reaction_pressure_raw".toList then
      some (store (readStepList pressureOpts) StepList.head Maps.pressures
        (fun t m => { m with pressures := t }) (l :: ls) s)
    else some (s, skip ls)
  | _ => some (s, skip ls)

/-- The loop of `read_input` with a bound on its turns; `none` if the bound is reached. Otherwise the
state and the lines not consumed. -/
def readBlocks : Nat → List Line → FileState → Option (FileState × List Line)
  | _, [], s => some (s, [])
  | 0, _ :: _, _ => none
  | f + 1, l :: ls, s =>
    match block l ls s with
    | none          => some (s, l :: ls)
    | some (s', ms) => readBlocks f ms s'

/-- `Phreeqc::read_input` (read.cpp:31-405) on the lines of a file, for a `Phreeqc` object that holds
`m`. Every turn of the loop consumes a line. -/
def readFile (ls : List Line) (m : Maps) : Option (FileState × List Line) :=
  readBlocks ls.length ls ⟨m, 0⟩

end Verif.Raw
