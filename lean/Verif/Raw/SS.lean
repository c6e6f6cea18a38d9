import Verif.Raw.Parser

/-!
# `SOLID_SOLUTIONS_RAW`

Model of the writing and reading of solid solutions
(`/repo/src/IPhreeqcPhast/IPhreeqc/phreeqcpp/SScomp.cxx`, `SS.cxx`, `SSassemblage.cxx`).
-/

namespace Verif.Raw

open Verif.OMap Verif.NameDouble

/-- `cxxSScomp`. -/
structure SSComp where
  name : Name
  moles : ℚ
  initialMoles : ℚ
  initMoles : ℚ
  delta : ℚ
  fraction : ℚ
  logLambda : ℚ
  logFraction : ℚ
  dn : ℚ
  dnc : ℚ
  dnb : ℚ
  deriving DecidableEq

/-- `cxxSScomp::dump_raw` (SScomp.cxx:51-77). -/
def dumpSSComp (rnd : ℚ → ℚ) (c : SSComp) : List Line :=
  [optLine "moles" [.num (rnd c.moles)], optLine "initial_moles" [.num (rnd c.initialMoles)],
   optLine "init_moles" [.num (rnd c.initMoles)], optLine "delta" [.num (rnd c.delta)],
   optLine "fraction_x" [.num (rnd c.fraction)], optLine "log10_lambda" [.num (rnd c.logLambda)],
   optLine "log10_fraction_x" [.num (rnd c.logFraction)], optLine "dn" [.num (rnd c.dn)],
   optLine "dnc" [.num (rnd c.dnc)], optLine "dnb" [.num (rnd c.dnb)]]

/-- `cxxSScomp::vopts` (SScomp.cxx:284-296). -/
def ssCompOpts : List Name :=
  ["name", "initial_moles", "moles", "init_moles", "delta", "fraction_x", "log10_lambda",
   "log10_fraction_x", "dn", "dnc", "dnb"].map String.toList

/-- The cases of `cxxSScomp::read_raw` (SScomp.cxx:114-216). -/
def ssCompAct (n : Nat) (rest : List Tok) (s : RS SSComp) : RS SSComp :=
  match n with
  | 0 => s.error
  | 1 => readNum (fun q c => { c with initialMoles := q }) 0 rest s
  | 2 => readNum (fun q c => { c with moles := q }) 0 rest s
  | 3 => readNum (fun q c => { c with initMoles := q }) 0 rest s
  | 4 => readNum (fun q c => { c with delta := q }) 0 rest s
  | 5 => readNum (fun q c => { c with fraction := q }) 0 rest s
  | 6 => readNum (fun q c => { c with logLambda := q }) 0 rest s
  | 7 => readNum (fun q c => { c with logFraction := q }) 0 rest s
  | 8 => readNum (fun q c => { c with dn := q }) 0 rest s
  | 9 => readNum (fun q c => { c with dnc := q }) 0 rest s
  | 10 => readNum (fun q c => { c with dnb := q }) 0 rest s
  | _ => s

/-- The loop of `cxxSScomp::read_raw` (SScomp.cxx:93-220): unknown input ends it. -/
def ssCompStep : Line → RS SSComp → Res (RS SSComp) := flatStep ssCompOpts ssCompAct .stop

/-- Default `cxxSScomp` (SScomp.cxx:28-46) with a name. -/
def newSSComp (n : Name) : SSComp := ⟨n, 0, 0, 0, 0, 0, 0, 0, 0, 0, 0⟩

/-- `cxxSS`. The vector `p` has four entries (SS.cxx:49-52). `inputCase` is the number of the
enumerator. -/
structure SS where
  name : Name
  comps : List SSComp
  tk : ℚ
  inputCase : Int
  p : ℚ × ℚ × ℚ × ℚ
  ag0 : ℚ
  ag1 : ℚ
  a0 : ℚ
  a1 : ℚ
  xb1 : ℚ
  xb2 : ℚ
  miscibility : Bool
  spinodal : Bool
  ssIn : Bool
  totalMoles : ℚ
  dn : ℚ
  totals : ND
  deriving DecidableEq

/-- `cxxSS::dump_raw` (SS.cxx:58-99). -/
def dumpSS (rnd : ℚ → ℚ) (x : SS) : List Line :=
  x.comps.flatMap (fun c => optLine "component" [.word c.name] :: dumpSSComp rnd c)
  ++ [optLine "tk" [.num (rnd x.tk)], optLine "input_case" [.num x.inputCase],
      optLine "p" [.num (rnd x.p.1), .num (rnd x.p.2.1), .num (rnd x.p.2.2.1),
        .num (rnd x.p.2.2.2)],
      optLine "ag0" [.num (rnd x.ag0)], optLine "ag1" [.num (rnd x.ag1)],
      optLine "a0" [.num (rnd x.a0)], optLine "a1" [.num (rnd x.a1)],
      optLine "xb1" [.num (rnd x.xb1)], optLine "xb2" [.num (rnd x.xb2)],
      optLine "miscibility" [boolTok x.miscibility], optLine "spinodal" [boolTok x.spinodal],
      optLine "ss_in" [boolTok x.ssIn], optLine "total_moles" [.num (rnd x.totalMoles)],
      optLine "dn" [.num (rnd x.dn)], optLine "totals" []]
  ++ dumpND rnd x.totals

/-- `cxxSS::vopts` (SS.cxx:589-608). -/
def ssOpts : List Name :=
  ["ss_name", "total_moles", "a0", "a1", "components", "miscibility", "spinodal", "tk", "xb1",
   "xb2", "ag0", "ag1", "component", "input_case", "p", "ss_in", "totals", "dn"].map String.toList

/-- `-p` (SS.cxx:329-339): four numbers; an error for each one that is missing, which is then
zero. -/
def readP (rest : List Tok) (s : RS SS) : RS SS :=
  match takeNums rest with
  | a :: b :: c :: d :: _ => { s with val := { s.val with p := (a, b, c, d) } }
  | [a, b, c] => { s with val := { s.val with p := (a, b, c, 0) }, errs := s.errs + 1 }
  | [a, b] => { s with val := { s.val with p := (a, b, 0, 0) }, errs := s.errs + 2 }
  | [a] => { s with val := { s.val with p := (a, 0, 0, 0) }, errs := s.errs + 3 }
  | [] => { s with val := { s.val with p := (0, 0, 0, 0) }, errs := s.errs + 4 }

/-- The plain cases of `cxxSS::read_raw` (SS.cxx:154-191, 234-370). -/
def ssAct (n : Nat) (rest : List Tok) (s : RS SS) : RS SS :=
  match n with
  | 0 => s.setSave none
  | 1 => (readNum (fun q x => { x with totalMoles := q }) 0 rest s).setSave none
  | 2 => (readNum (fun q x => { x with a0 := q }) 0 rest s).setSave none
  | 3 => (readNum (fun q x => { x with a1 := q }) 0 rest s).setSave none
  | 5 => (readBool (fun b x => { x with miscibility := b }) false rest s).setSave none
  | 6 => (readBool (fun b x => { x with spinodal := b }) false rest s).setSave none
  | 7 => (readNum (fun q x => { x with tk := q }) 0 rest s).setSave none
  | 8 => (readNum (fun q x => { x with xb1 := q }) 0 rest s).setSave none
  | 9 => (readNum (fun q x => { x with xb2 := q }) 0 rest s).setSave none
  | 10 => (readNum (fun q x => { x with ag0 := q }) 0 rest s).setSave none
  | 11 => (readNum (fun q x => { x with ag1 := q }) 0 rest s).setSave none
  | 13 => (readInt (fun i x => { x with inputCase := i }) (-1) rest s).setSave none
  | 14 => readP rest s
  | 15 => readBool (fun b x => { x with ssIn := b }) false rest s
  | 16 => (readPair (fun w q x => { x with totals := insert x.totals w q }) rest s).setSave (some 16)
  | 17 => (readNum (fun q x => { x with dn := q }) 0 rest s).setSave none
  | _ => s

/-- State of the nested component reader: the name and whether `Find` found a component. -/
abbrev SSCompIn := (Name × Bool) × RS SSComp

/-- `cxxSS::Find` (SS.cxx:501-511): with the same case. -/
def findSSComp (cs : List SSComp) (w : Name) : Option SSComp := cs.find? (fun c => c.name == w)

/-- Start of a component (SS.cxx:193-211, 231). If the name is missing the name of the solid
solution is erased. -/
def ssEnter (n : Nat) (rest : List Tok) (s : RS SS) : Option (RS SS × Option SSCompIn) :=
  if n = 4 ∨ n = 12 then
    match rest with
    | .word w :: _ =>
      match findSSComp s.val.comps w with
      | some c => some (s.setSave none, some ((w, true), ⟨c, none, [], 0⟩))
      | none   => some (s.setSave none, some ((w, false), ⟨newSSComp w, none, [], 0⟩))
    | _ => some ({ s with val := { s.val with name := [] }, save := none, errs := s.errs + 1 }, none)
  else none

/-- End of a component (SS.cxx:212-228): the replacement ignores the case. -/
def ssClose (s : RS SS) (i : SSCompIn) : RS SS :=
  { s with
    val := { s.val with
      comps := if i.1.2 then
          s.val.comps.map (fun c => if lower c.name = lower i.1.1 then i.2.val else c)
        else s.val.comps ++ [i.2.val] }
    errs := s.errs + i.2.errs }

/-- The loop of `cxxSS::read_raw` (SS.cxx:126-374): unknown input ends it. -/
def ssStep : Line → RS SS × Option SSCompIn → Res (RS SS × Option SSCompIn) :=
  nestStep (outerStep ssOpts ssAct ssEnter (fun s => .stop (s, none))) (tagStep ssCompStep) ssClose

/-- Default `cxxSS` (SS.cxx:28-53) with a name; `SS_PARM_NONE` is -1 (SS.h:23). -/
def newSS (n : Name) : SS :=
  ⟨n, [], 29815/100, -1, (0, 0, 0, 0), 0, 0, 0, 0, 0, 0, false, false, false, 0, 0, []⟩

/-- `cxxSSassemblage`. -/
structure SSAssemblage where
  head : Head
  sss : SMap Name SS
  newDef : Bool
  totals : ND
  deriving DecidableEq

/-- `cxxSSassemblage::dump_raw` (SSassemblage.cxx:67-103). -/
def dumpSSAssemblage (rnd : ℚ → ℚ) (x : SSAssemblage) : List Line :=
  [headLine "SOLID_SOLUTIONS_RAW" x.head]
  ++ x.sss.flatMap (fun c => optLine "solid_solution" [.word c.1] :: dumpSS rnd c.2)
  ++ [optLine "new_def" [boolTok x.newDef], optLine "SSassemblage_totals" []]
  ++ dumpND rnd x.totals

/-- `cxxSSassemblage::vopts` (SSassemblage.cxx:312-316). -/
def ssAssemblageOpts : List Name :=
  ["solid_solution", "ssassemblage_totals", "new_def"].map String.toList

/-- The plain cases of `cxxSSassemblage::read_raw` (SSassemblage.cxx:173-198). -/
def ssAssemblageAct (n : Nat) (rest : List Tok) (s : RS SSAssemblage) : RS SSAssemblage :=
  match n with
  | 1 => (readPair (fun w q x => { x with totals := insert x.totals w q }) rest s).setSave (some 1)
  | 2 => readFlag (fun b x => { x with newDef := b }) rest s
  | _ => s

/-- State of the nested reader of a solid solution. -/
abbrev SSIn := Name × (RS SS × Option SSCompIn)

/-- Start of a solid solution (SSassemblage.cxx:152-167). `Find` looks the name up in the map
(SSassemblage.cxx:258-266). Without a name an error is reported and the solid solution is read
under the empty name. -/
def ssAssemblageEnter (n : Nat) (rest : List Tok) (s : RS SSAssemblage) :
    Option (RS SSAssemblage × Option SSIn) :=
  if n = 0 then
    match rest with
    | .word w :: _ =>
      match find s.val.sss w with
      | some c => some (s, some (w, (⟨c, none, [], 0⟩, none)))
      | none   => some (s, some (w, (⟨newSS w, none, [], 0⟩, none)))
    | _ =>
      match find s.val.sss [] with
      | some c => some (s.error, some ([], (⟨c, none, [], 0⟩, none)))
      | none   => some (s.error, some ([], (⟨newSS [], none, [], 0⟩, none)))
  else none

/-- End of a solid solution (SSassemblage.cxx:168-169). -/
def ssAssemblageClose (s : RS SSAssemblage) (i : SSIn) : RS SSAssemblage :=
  { s with
    val := { s.val with sss := insert s.val.sss i.1 (nestEnd ssClose i.2).val }
    errs := s.errs + (nestEnd ssClose i.2).errs }

/-- The loop of `cxxSSassemblage::read_raw` (SSassemblage.cxx:121-202): unknown input is reported
and ends it. -/
def ssAssemblageStep :
    Line → RS SSAssemblage × Option SSIn → Res (RS SSAssemblage × Option SSIn) :=
  nestStep
    (outerStep ssAssemblageOpts ssAssemblageAct ssAssemblageEnter (fun s => .stop (s.error, none)))
    (tagStep ssStep)
    ssAssemblageClose

/-- Default `cxxSSassemblage` (SSassemblage.cxx:31-38). -/
def newSSAssemblage (h : Head) : SSAssemblage := ⟨h, [], false, []⟩

/-- `cxxSSassemblage::read_raw` (SSassemblage.cxx:104-203) on a new object: the object, the number
of errors and the lines left. -/
def readSSAssemblage : List Line → SSAssemblage × Nat × List Line
  | [] => (newSSAssemblage ⟨1, 1, []⟩, 1, [])
  | h :: ls =>
    let r := feed ssAssemblageStep ls (⟨newSSAssemblage (readHead h), none, [], 0⟩, none)
    let s := nestEnd ssAssemblageClose r.1
    (s.val, s.errs, r.2)

end Verif.Raw
