import Verif.Raw.Parser

/-!
# `EQUILIBRIUM_PHASES_RAW`

Model of the writing and reading of equilibrium phases
(`/repo/src/IPhreeqcPhast/IPhreeqc/phreeqcpp/PPassemblageComp.cxx`, `PPassemblage.cxx`).
-/

namespace Verif.Raw

open Verif.OMap Verif.NameDouble

/-- `cxxPPassemblageComp`. -/
structure PPComp where
  name : Name
  addFormula : Name
  si : ℚ
  moles : ℚ
  forceEquality : Bool
  dissolveOnly : Bool
  precipitateOnly : Bool
  siOrg : ℚ
  delta : ℚ
  initialMoles : ℚ
  totals : ND
  deriving DecidableEq

/-- `cxxPPassemblageComp::dump_raw` (PPassemblageComp.cxx:82-110). -/
def dumpPPComp (rnd : ℚ → ℚ) (c : PPComp) : List Line :=
  nameLine "add_formula" c.addFormula
  ++ [optLine "si" [.num (rnd c.si)], optLine "moles" [.num (rnd c.moles)],
      optLine "force_equality" [boolTok c.forceEquality],
      optLine "dissolve_only" [boolTok c.dissolveOnly],
      optLine "precipitate_only" [boolTok c.precipitateOnly],
      optLine "si_org" [.num (rnd c.siOrg)], optLine "delta" [.num (rnd c.delta)],
      optLine "initial_moles" [.num (rnd c.initialMoles)], optLine "totals" []]
  ++ dumpND rnd c.totals

/-- `cxxPPassemblageComp::vopts` (PPassemblageComp.cxx:428-441). -/
def ppCompOpts : List Name :=
  ["name", "add_formula", "si", "moles", "delta", "initial_moles", "dissolve_only",
   "force_equality", "precipitate_only", "si_org", "totals"].map String.toList

/-- `if (this->dissolve_only) this->precipitate_only = false` (PPassemblageComp.cxx:215-218). -/
def setDissolve (b : Bool) (c : PPComp) : PPComp :=
  if b then { c with dissolveOnly := true, precipitateOnly := false }
  else { c with dissolveOnly := false }

/-- `if (this->precipitate_only) this->dissolve_only = false` (PPassemblageComp.cxx:240-243). -/
def setPrecipitate (b : Bool) (c : PPComp) : PPComp :=
  if b then { c with precipitateOnly := true, dissolveOnly := false }
  else { c with precipitateOnly := false }

/-- The cases of `cxxPPassemblageComp::read_raw` (PPassemblageComp.cxx:150-264). -/
def ppCompAct (n : Nat) (rest : List Tok) (s : RS PPComp) : RS PPComp :=
  match n with
  | 1 => readWord (fun w c => { c with addFormula := w }) rest s
  | 2 => (readNum (fun q c => { c with si := q }) 0 rest s).seen 2
  | 3 => (readNum (fun q c => { c with moles := q }) 0 rest s).seen 3
  | 4 => (readNum (fun q c => { c with delta := q }) 0 rest s).seen 4
  | 5 => (readNum (fun q c => { c with initialMoles := q }) 0 rest s).seen 5
  | 6 => (readBool setDissolve false rest s).seen 6
  | 7 => (readBool (fun b c => { c with forceEquality := b }) false rest s).seen 7
  | 8 => readBool setPrecipitate false rest s
  | 9 => readNum (fun q c => { c with siOrg := q }) 0 rest s
  | 10 => (readPair (fun w q c => { c with totals := insert c.totals w q }) rest s).setSave (some 10)
  | _ => s

/-- The loop of `cxxPPassemblageComp::read_raw` (PPassemblageComp.cxx:130-267): unknown input ends
it. -/
def ppCompStep : Line → RS PPComp → Res (RS PPComp) := flatStep ppCompOpts ppCompAct .stop

/-- Default `cxxPPassemblageComp` (PPassemblageComp.cxx:28-43) with a name. -/
def newPPComp (n : Name) : PPComp := ⟨n, [], 0, 10, false, false, false, 0, 0, 0, []⟩

/-- `cxxPPassemblage`. -/
structure PPAssemblage where
  head : Head
  newDef : Bool
  comps : SMap Name PPComp
  eltList : ND
  totals : ND
  deriving DecidableEq

/-- `cxxPPassemblage::dump_raw` (PPassemblage.cxx:97-132): `-new_def` is always written as 0. -/
def dumpPP (rnd : ℚ → ℚ) (x : PPAssemblage) : List Line :=
  [headLine "EQUILIBRIUM_PHASES_RAW" x.head, optLine "new_def" [.num 0]]
  ++ x.comps.flatMap (fun c => optLine "component" [.word c.2.name] :: dumpPPComp rnd c.2)
  ++ [optLine "eltList" []] ++ dumpND rnd x.eltList
  ++ [optLine "assemblage_totals" []] ++ dumpND rnd x.totals

/-- `cxxPPassemblage::vopts` (PPassemblage.cxx:369-374). -/
def ppOpts : List Name :=
  ["eltlist", "component", "new_def", "assemblage_totals"].map String.toList

/-- The plain cases of `cxxPPassemblage::read_raw` (PPassemblage.cxx:183-193, 216-238). -/
def ppAct (n : Nat) (rest : List Tok) (s : RS PPAssemblage) : RS PPAssemblage :=
  match n with
  | 0 => (readPair (fun w q x => { x with eltList := insert x.eltList w q }) rest s).setSave (some 0)
  | 2 => readBool (fun b x => { x with newDef := b }) false rest s
  | 3 => (readPair (fun w q x => { x with totals := insert x.totals w q }) rest s).setSave (some 3)
  | _ => s

/-- State of the nested component reader. -/
abbrev PPIn := Name × RS PPComp

/-- `cxxPPassemblage::Find` (PPassemblage.cxx:310-325). -/
def findPP (cs : SMap Name PPComp) (w : Name) : Option PPComp :=
  (cs.find? (fun p => lower w == lower p.1)).map Prod.snd

/-- The members a component has to define (PPassemblageComp.cxx:269-311). -/
def ppReq : List Nat := [2, 3, 4, 5, 6, 7]

/-- Start of a component (PPassemblage.cxx:194-210). -/
def ppEnter (n : Nat) (rest : List Tok) (s : RS PPAssemblage) :
    Option (RS PPAssemblage × Option PPIn) :=
  if n = 1 then
    match rest with
    | .word w :: _ =>
      match findPP s.val.comps w with
      | some c => some (s, some (w, ⟨c, none, ppReq, 0⟩))
      | none   => some (s, some (w, ⟨newPPComp w, none, ppReq, 0⟩))
    | _ => some (s.error, none)
  else none

/-- End of a component (PPassemblage.cxx:211-213). -/
def ppClose (s : RS PPAssemblage) (i : PPIn) : RS PPAssemblage :=
  { s with
    val := { s.val with comps := insert s.val.comps i.1 i.2.val }
    errs := s.errs + i.2.check.errs }

/-- The loop of `cxxPPassemblage::read_raw` (PPassemblage.cxx:151-241): unknown input is reported
and ends it. -/
def ppStep : Line → RS PPAssemblage × Option PPIn → Res (RS PPAssemblage × Option PPIn) :=
  nestStep
    (outerStep ppOpts ppAct ppEnter (fun s => .stop (s.error, none)))
    (tagStep ppCompStep)
    ppClose

/-- Default `cxxPPassemblage` (PPassemblage.cxx:28-36). -/
def newPP (h : Head) : PPAssemblage := ⟨h, false, [], [], []⟩

/-- `cxxPPassemblage::read_raw` (PPassemblage.cxx:134-242) on a new object: the object, the number
of errors and the lines left. -/
def readPP : List Line → PPAssemblage × Nat × List Line
  | [] => (newPP ⟨1, 1, []⟩, 1, [])
  | h :: ls =>
    let r := feed ppStep ls (⟨newPP (readHead h), none, [], 0⟩, none)
    let s := nestEnd ppClose r.1
    (s.val, s.errs, r.2)

end Verif.Raw
