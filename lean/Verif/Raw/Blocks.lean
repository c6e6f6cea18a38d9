import Verif.Raw.Parser

/-!
# `MIX_RAW`, `REACTION_RAW`, `REACTION_TEMPERATURE_RAW`, `REACTION_PRESSURE_RAW`

Model of writing and reading
(`/repo/src/IPhreeqcPhast/IPhreeqc/phreeqcpp/cxxMix.cxx`, `Reaction.cxx`, `Temperature.cxx`,
`Pressure.cxx`), the readers on new objects.
-/

namespace Verif.Raw

open Verif.OMap Verif.NameDouble

/-- `cxxTemperature` and `cxxPressure`, which have the same members. -/
structure StepList where
  head : Head
  values : List ℚ
  count : Int
  equal : Bool
  deriving DecidableEq

/-- `cxxTemperature::Get_countTemps` (Temperature.cxx:375-383) and `cxxPressure::Get_count`
(Pressure.cxx:367-375): the number of steps. -/
def StepList.steps (x : StepList) : Int := if x.equal then x.count else x.values.length

/-- `cxxTemperature::dump_raw` (Temperature.cxx:157-200). -/
def dumpTemperature (rnd : ℚ → ℚ) (x : StepList) : List Line :=
  [headLine "REACTION_TEMPERATURE_RAW" x.head, optLine "count_temps" [.num x.steps],
   optLine "equal_increments" [boolTok x.equal], optLine "temps" []]
  ++ numLines rnd x.values

/-- `cxxPressure::dump_raw` (Pressure.cxx:157-200). -/
def dumpPressure (rnd : ℚ → ℚ) (x : StepList) : List Line :=
  [headLine "REACTION_PRESSURE_RAW" x.head, optLine "count" [.num x.count],
   optLine "equal_increments" [boolTok x.equal], optLine "pressures" []]
  ++ numLines rnd x.values

/-- `cxxTemperature::vopts` (Temperature.cxx:418-422). -/
def temperatureOpts : List Name :=
  ["temps", "equal_increments", "count_temps"].map String.toList

/-- `cxxPressure::vopts` (Pressure.cxx:412-416). -/
def pressureOpts : List Name := ["pressures", "equal_increments", "count"].map String.toList

/-- The cases of `cxxTemperature::read_raw` (Temperature.cxx:253-303) and of
`cxxPressure::read_raw` (Pressure.cxx:253-299). -/
def stepListAct (n : Nat) (rest : List Tok) (s : RS StepList) : RS StepList :=
  match n with
  | 0 => { s with val := { s.val with values := s.val.values ++ takeNums rest }, save := some 0 }
  | 1 => ((readBool (fun b x => { x with equal := b }) false rest s).seen 1).setSave none
  | 2 => ((readInt (fun i x => { x with count := i }) 0 rest s).seen 2).setSave none
  | _ => s

/-- The loops Temperature.cxx:223-307 and Pressure.cxx:223-303. -/
def stepListStep (opts : List Name) : Line → RS StepList → Res (RS StepList) :=
  flatStep opts stepListAct (fun s => .stop s.error)

/-- Default object (Temperature.cxx:28-36, Pressure.cxx:28-36). -/
def newStepList (h : Head) : StepList := ⟨h, [], 0, false⟩

/-- `cxxTemperature::read_raw` (Temperature.cxx:202-328) with `temperatureOpts`,
`cxxPressure::read_raw` (Pressure.cxx:202-320) with `pressureOpts`. -/
def readStepList (opts : List Name) : List Line → StepList × Nat × List Line
  | [] => (newStepList ⟨1, 1, []⟩, 1, [])
  | h :: ls =>
    let r := feed (stepListStep opts) ls ⟨newStepList (readHead h), none, [1, 2], 0⟩
    (r.1.check.val, r.1.check.errs, r.2)

/-- `cxxReaction`. -/
structure Reaction where
  head : Head
  reactants : ND
  steps : List ℚ
  count : Int
  equal : Bool
  units : Name
  elements : ND
  deriving DecidableEq

/-- `cxxReaction::dump_raw` (Reaction.cxx:43-97). -/
def dumpReaction (rnd : ℚ → ℚ) (x : Reaction) : List Line :=
  [headLine "REACTION_RAW" x.head, optLine "reactant_list" []] ++ dumpND rnd x.reactants
  ++ [optLine "steps" []] ++ numLines rnd x.steps
  ++ [optLine "count_steps" [.num x.count], optLine "equal_increments" [boolTok x.equal],
      optLine "units" (if x.units = [] then [] else [.word x.units]), optLine "element_list" []]
  ++ dumpND rnd x.elements

/-- `cxxReaction::vopts` (Reaction.cxx:276-283). -/
def reactionOpts : List Name :=
  ["units", "reactant_list", "element_list", "steps", "equal_increments", "count_steps"].map
    String.toList

/-- The cases of `cxxReaction::read_raw` (Reaction.cxx:154-238). A number in the place of the units
does not occur in dumped text; it is passed over here. -/
def reactionAct (n : Nat) (rest : List Tok) (s : RS Reaction) : RS Reaction :=
  match n with
  | 0 =>
    match rest with
    | .word w :: _ => (({ s with val := { s.val with units := w } } : RS Reaction).seen 0).setSave none
    | _ => s
  | 1 => (readPair (fun w q x => { x with reactants := insert x.reactants w q }) rest s).setSave
      (some 1)
  | 2 => (readPair (fun w q x => { x with elements := insert x.elements w q }) rest s).setSave
      (some 2)
  | 3 => { s with val := { s.val with steps := s.val.steps ++ takeNums rest }, save := some 3 }
  | 4 => ((readBool (fun b x => { x with equal := b }) false rest s).seen 4).setSave none
  | 5 => ((readInt (fun i x => { x with count := i }) 0 rest s).seen 5).setSave none
  | _ => s

/-- The loop of `cxxReaction::read_raw` (Reaction.cxx:124-242). -/
def reactionStep : Line → RS Reaction → Res (RS Reaction) :=
  flatStep reactionOpts reactionAct (fun s => .stop s.error)

/-- Default `cxxReaction` (Reaction.cxx:27-38). -/
def newReaction (h : Head) : Reaction := ⟨h, [], [], 0, false, "Mol".toList, []⟩

/-- `cxxReaction::read_raw` (Reaction.cxx:99-266). -/
def readReaction : List Line → Reaction × Nat × List Line
  | [] => (newReaction ⟨1, 1, []⟩, 1, [])
  | h :: ls =>
    let r := feed reactionStep ls ⟨newReaction (readHead h), none, [0, 4, 5], 0⟩
    (r.1.check.val, r.1.check.errs, r.2)

/-- `cxxMix`. -/
structure Mix where
  head : Head
  comps : SMap Int ℚ
  deriving DecidableEq

/-- `cxxMix::dump_raw` (cxxMix.cxx:40-63). -/
def dumpMix (rnd : ℚ → ℚ) (x : Mix) : List Line :=
  headLine "MIX_RAW" x.head :: dumpIntMap rnd x.comps

/-- The case `OPT_DEFAULT` of `cxxMix::read_raw` (cxxMix.cxx:112-137), given the number 0 here. -/
def mixAct (_ : Nat) (rest : List Tok) (s : RS Mix) : RS Mix :=
  match rest with
  | [] => s
  | .num i :: .num q :: _ =>
    { s with val := { s.val with
        comps := insert s.val.comps (if 0 ≤ i then i.floor else i.ceil) q } }
  | _ => s.error

/-- The loop of `cxxMix::read_raw` (cxxMix.cxx:83-141); there are no options (cxxMix.cxx:154). -/
def mixStep : Line → RS Mix → Res (RS Mix) := flatStep [] mixAct (fun s => .stop s.error)

/-- `cxxMix::read_raw` (cxxMix.cxx:65-142). -/
def readMix : List Line → Mix × Nat × List Line
  | [] => (⟨⟨1, 1, []⟩, []⟩, 1, [])
  | h :: ls =>
    let r := feed mixStep ls ⟨⟨readHead h, []⟩, some 0, [], 0⟩
    (r.1.val, r.1.errs, r.2)

end Verif.Raw
