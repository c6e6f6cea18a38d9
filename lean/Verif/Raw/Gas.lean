import Verif.Raw.Parser

/-!
# `GAS_PHASE_RAW`

Model of the writing and reading of a gas phase
(`/repo/src/IPhreeqcPhast/IPhreeqc/phreeqcpp/GasComp.cxx`, `GasPhase.cxx`). A `-totals` line that
directly follows a component is read again and again by the program, because this case leaves
`useLastLine` set (GasPhase.cxx:421-432); it does not occur in dumped text and is not modelled.
-/

namespace Verif.Raw

open Verif.OMap Verif.NameDouble

/-- `cxxGasComp`. -/
structure GasComp where
  name : Name
  moles : ℚ
  pRead : ℚ
  initialMoles : ℚ
  p : ℚ
  phi : ℚ
  f : ℚ
  deriving DecidableEq

/-- `cxxGasComp::dump_raw` (GasComp.cxx:48-71). -/
def dumpGasComp (rnd : ℚ → ℚ) (c : GasComp) : List Line :=
  [optLine "moles" [.num (rnd c.moles)], optLine "p_read" [.num (rnd c.pRead)],
   optLine "initial_moles" [.num (rnd c.initialMoles)], optLine "p" [.num (rnd c.p)],
   optLine "phi" [.num (rnd c.phi)], optLine "f" [.num (rnd c.f)]]

/-- `cxxGasComp::vopts` (GasComp.cxx:255-264). -/
def gasCompOpts : List Name :=
  ["phase_name", "name", "p_read", "moles", "initial_moles", "p", "phi", "f"].map String.toList

/-- The cases of `cxxGasComp::read_raw` (GasComp.cxx:102-169). -/
def gasCompAct (n : Nat) (rest : List Tok) (s : RS GasComp) : RS GasComp :=
  match n with
  | 2 => readNum (fun q c => { c with pRead := q }) 0 rest s
  | 3 => (readNum (fun q c => { c with moles := q }) 0 rest s).seen 3
  | 4 => readNum (fun q c => { c with initialMoles := q }) 0 rest s
  | 5 => readNum (fun q c => { c with p := q }) 0 rest s
  | 6 => readNum (fun q c => { c with phi := q }) 0 rest s
  | 7 => readNum (fun q c => { c with f := q }) 0 rest s
  | _ => s

/-- The loop of `cxxGasComp::read_raw` (GasComp.cxx:86-174): unknown input ends it. -/
def gasCompStep : Line → RS GasComp → Res (RS GasComp) := flatStep gasCompOpts gasCompAct .stop

/-- Default `cxxGasComp` (GasComp.cxx:29-41) with a name. -/
def newGasComp (n : Name) : GasComp := ⟨n, 0, 0, 0, 0, 0, 0⟩

/-- `cxxGasPhase`; `type` is the number of the enumeration. -/
structure GasPhase where
  head : Head
  type : Int
  totalP : ℚ
  volume : ℚ
  comps : List GasComp
  newDef : Bool
  solEq : Bool
  nSolution : Int
  temperature : ℚ
  totalMoles : ℚ
  vm : ℚ
  prIn : Bool
  totals : ND
  deriving DecidableEq

/-- `cxxGasPhase::dump_raw` (GasPhase.cxx:158-211). -/
def dumpGasPhase (rnd : ℚ → ℚ) (x : GasPhase) : List Line :=
  [headLine "GAS_PHASE_RAW" x.head, optLine "type" [.num x.type],
   optLine "total_p" [.num (rnd x.totalP)], optLine "volume" [.num (rnd x.volume)]]
  ++ x.comps.flatMap (fun c => optLine "component" [.word c.name] :: dumpGasComp rnd c)
  ++ [optLine "new_def" [boolTok x.newDef], optLine "solution_equilibria" [boolTok x.solEq],
      optLine "n_solution" [.num x.nSolution], optLine "temperature" [.num (rnd x.temperature)],
      optLine "total_moles" [.num (rnd x.totalMoles)], optLine "v_m" [.num (rnd x.vm)],
      optLine "pr_in" [boolTok x.prIn], optLine "totals" []]
  ++ dumpND rnd x.totals

/-- `cxxGasPhase::vopts` (GasPhase.cxx:644-658). -/
def gasPhaseOpts : List Name :=
  ["type", "total_p", "volume", "v_m", "component", "pressure", "pr_in", "new_def",
   "solution_equilibria", "n_solution", "total_moles", "temperature", "totals"].map String.toList

/-- The plain cases of `cxxGasPhase::read_raw` (GasPhase.cxx:267-432). -/
def gasPhaseAct (n : Nat) (rest : List Tok) (s : RS GasPhase) : RS GasPhase :=
  match n with
  | 0 => (readInt (fun i x => { x with type := i }) 0 rest s).seen 0
  | 1 => (readNum (fun q x => { x with totalP := q }) 0 rest s).seen 1
  | 2 => (readNum (fun q x => { x with volume := q }) 0 rest s).seen 2
  | 3 => readNum (fun q x => { x with vm := q }) 0 rest s
  | 5 => (readNum (fun q x => { x with totalP := q }) 0 rest s).seen 1
  | 6 => readFlag (fun b x => { x with prIn := b }) rest s
  | 7 => readFlag (fun b x => { x with newDef := b }) rest s
  | 8 => readFlag (fun b x => { x with solEq := b }) rest s
  | 9 => readInt (fun i x => { x with nSolution := i }) 0 rest s
  | 10 => readNum (fun q x => { x with totalMoles := q }) 0 rest s
  | 11 => readNum (fun q x => { x with temperature := q }) 0 rest s
  | 12 => (readPair (fun w q x => { x with totals := insert x.totals w q }) rest s).setSave
      (some 12)
  | _ => s

/-- State of the nested component reader: the name on the `-component` line, whether `Find_comp`
found a component, the reader of the component. -/
abbrev GasIn := (Name × Bool) × RS GasComp

/-- `cxxGasPhase::Find_comp` (GasPhase.cxx:578-589). -/
def findGas (cs : List GasComp) (w : Name) : Option GasComp :=
  cs.find? (fun c => lower c.name == lower w)

/-- Start of a component (GasPhase.cxx:318-336, 355). -/
def gasPhaseEnter (n : Nat) (rest : List Tok) (s : RS GasPhase) :
    Option (RS GasPhase × Option GasIn) :=
  if n = 4 then
    match rest with
    | .word w :: _ =>
      match findGas s.val.comps w with
      | some c => some (s.setSave none, some ((w, true), ⟨c, none, [], 0⟩))
      | none   => some (s.setSave none, some ((w, false), ⟨newGasComp w, none, [], 0⟩))
    | _ => some (s.error.setSave none, none)
  else none

/-- End of a component (GasPhase.cxx:336-351). The component is read without the check of required
members. -/
def gasPhaseClose (s : RS GasPhase) (i : GasIn) : RS GasPhase :=
  { s with
    val := { s.val with
      comps := if i.1.2 then
          s.val.comps.map (fun c => if lower c.name = lower i.1.1 then i.2.val else c)
        else s.val.comps ++ [i.2.val] }
    errs := s.errs + i.2.errs }

/-- The loop of `cxxGasPhase::read_raw` (GasPhase.cxx:234-436): unknown input is reported and
ends it (GasPhase.cxx:258-265). -/
def gasPhaseStep : Line → RS GasPhase × Option GasIn → Res (RS GasPhase × Option GasIn) :=
  nestStep
    (outerStep gasPhaseOpts gasPhaseAct gasPhaseEnter (fun s => .stop (s.error, none)))
    (tagStep gasCompStep)
    gasPhaseClose

/-- Default `cxxGasPhase` (GasPhase.cxx:29-45). -/
def newGasPhase (h : Head) : GasPhase :=
  ⟨h, 0, 1, 1, [], false, false, -999, 29815/100, 0, 0, false, []⟩

/-- `cxxGasPhase::read_raw` (GasPhase.cxx:213-459) on a new object: the object, the number of
errors and the lines left. -/
def readGasPhase : List Line → GasPhase × Nat × List Line
  | [] => (newGasPhase ⟨1, 1, []⟩, 1, [])
  | h :: ls =>
    let r := feed gasPhaseStep ls (⟨newGasPhase (readHead h), none, [0, 1, 2], 0⟩, none)
    let s := (nestEnd gasPhaseClose r.1).check
    (s.val, s.errs, r.2)

end Verif.Raw
