import Verif.Raw.Parser

/-!
# `KINETICS_RAW`

Model of the writing and reading of kinetic reactants
(`/repo/src/IPhreeqcPhast/IPhreeqc/phreeqcpp/KineticsComp.cxx`, `cxxKinetics.cxx`).
-/

namespace Verif.Raw

open Verif.OMap Verif.NameDouble

/-- `cxxKineticsComp`; `reaction` is the workspace `moles_of_reaction`, which is not written. -/
structure KinComp where
  name : Name
  tol : ℚ
  m : ℚ
  m0 : ℚ
  namecoef : ND
  dParams : List ℚ
  moles : ℚ
  initialMoles : ℚ
  reaction : ND
  deriving DecidableEq

/-- `cxxKineticsComp::dump_raw` (KineticsComp.cxx:47-94). -/
def dumpKinComp (rnd : ℚ → ℚ) (c : KinComp) : List Line :=
  [optLine "tol" [.num (rnd c.tol)], optLine "m" [.num (rnd c.m)], optLine "m0" [.num (rnd c.m0)],
   optLine "namecoef" []] ++ dumpND rnd c.namecoef
  ++ [optLine "d_params" []] ++ numLines rnd c.dParams
  ++ [optLine "moles" [.num (rnd c.moles)], optLine "initial_moles" [.num (rnd c.initialMoles)]]

/-- `cxxKineticsComp::vopts` (KineticsComp.cxx:308-317). -/
def kinCompOpts : List Name :=
  ["rate_name_not_used", "tol", "m", "m0", "moles", "namecoef", "d_params", "initial_moles"].map
    String.toList

/-- The component being read and `temp_d_params`. -/
abbrev KinRead := KinComp × List ℚ

/-- The cases of `cxxKineticsComp::read_raw` (KineticsComp.cxx:134-213). -/
def kinCompAct (n : Nat) (rest : List Tok) (s : RS KinRead) : RS KinRead :=
  match n with
  | 1 => readNum (fun q c => ({ c.1 with tol := q }, c.2)) 0 rest s
  | 2 => readNum (fun q c => ({ c.1 with m := q }, c.2)) 0 rest s
  | 3 => readNum (fun q c => ({ c.1 with m0 := q }, c.2)) 0 rest s
  | 4 => readNum (fun q c => ({ c.1 with moles := q }, c.2)) 0 rest s
  | 5 => (readPair (fun w q c => ({ c.1 with namecoef := insert c.1.namecoef w q }, c.2)) rest
      s).setSave (some 5)
  | 6 => { s with val := (s.val.1, s.val.2 ++ takeNums rest), save := some 6 }
  | 7 => readNum (fun q c => ({ c.1 with initialMoles := q }, c.2)) 0 rest s
  | _ => s

/-- The loop of `cxxKineticsComp::read_raw` (KineticsComp.cxx:114-217): unknown input ends it. -/
def kinCompStep : Line → RS KinRead → Res (RS KinRead) := flatStep kinCompOpts kinCompAct .stop

/-- Default `cxxKineticsComp` (KineticsComp.cxx:29-42) with a name. -/
def newKinComp (n : Name) : KinComp := ⟨n, 1/100000000, -1, -1, [], [], 0, 0, []⟩

/-- The parameters replace the old ones if any were read (KineticsComp.cxx:219-222). -/
def KinRead.result (c : KinRead) : KinComp := if c.2 = [] then c.1 else { c.1 with dParams := c.2 }

/-- `cxxKinetics`. -/
structure Kinetics where
  head : Head
  stepDivide : ℚ
  rk : Int
  badStepMax : Int
  useCvode : Bool
  cvodeSteps : Int
  cvodeOrder : Int
  comps : List KinComp
  equal : Bool
  count : Int
  steps : List ℚ
  totals : ND
  deriving DecidableEq

/-- `cxxKinetics::dump_raw` (cxxKinetics.cxx:80-160). -/
def dumpKinetics (rnd : ℚ → ℚ) (x : Kinetics) : List Line :=
  [headLine "KINETICS_RAW" x.head, optLine "step_divide" [.num (rnd x.stepDivide)],
   optLine "rk" [.num x.rk], optLine "bad_step_max" [.num x.badStepMax],
   optLine "use_cvode" [boolTok x.useCvode], optLine "cvode_steps" [.num x.cvodeSteps],
   optLine "cvode_order" [.num x.cvodeOrder]]
  ++ x.comps.flatMap (fun c => optLine "component" [.word c.name] :: dumpKinComp rnd c)
  ++ [optLine "equal_increments" [boolTok x.equal], optLine "count" [.num x.count],
      optLine "steps" []] ++ numLines rnd x.steps
  ++ [optLine "totals" []] ++ dumpND rnd x.totals

/-- `cxxKinetics::vopts` (cxxKinetics.cxx:603-616). -/
def kineticsOpts : List Name :=
  ["step_divide", "rk", "bad_step_max", "use_cvode", "component", "totals", "steps", "cvode_steps",
   "cvode_order", "equalincrements", "count", "equal_increments"].map String.toList

/-- The reactant being read and `temp_steps`. -/
abbrev KineticsRead := Kinetics × List ℚ

/-- Text that is no boolean after `-equal_increments` (cxxKinetics.cxx:355-361): the member that is
reset is `use_cvode`. -/
def kinEqual (rest : List Tok) (s : RS KineticsRead) : RS KineticsRead :=
  match rest with
  | .num q :: _ =>
    if q = 0 then { s with val := ({ s.val.1 with equal := false }, s.val.2) }
    else if q = 1 then { s with val := ({ s.val.1 with equal := true }, s.val.2) }
    else { s with val := ({ s.val.1 with useCvode := false }, s.val.2), errs := s.errs + 1 }
  | _ => { s with val := ({ s.val.1 with useCvode := false }, s.val.2), errs := s.errs + 1 }

/-- The plain cases of `cxxKinetics::read_raw` (cxxKinetics.cxx:217-371). -/
def kineticsAct (n : Nat) (rest : List Tok) (s : RS KineticsRead) : RS KineticsRead :=
  match n with
  | 0 => (readNum (fun q x => ({ x.1 with stepDivide := q }, x.2)) 1 rest s).seen 0
  | 1 => (readInt (fun q x => ({ x.1 with rk := q }, x.2)) 3 rest s).seen 1
  | 2 => (readInt (fun q x => ({ x.1 with badStepMax := q }, x.2)) 500 rest s).seen 2
  | 3 => (readBool (fun q x => ({ x.1 with useCvode := q }, x.2)) false rest s).seen 3
  | 5 => (readPair (fun w q x => ({ x.1 with totals := insert x.1.totals w q }, x.2)) rest
      s).setSave (some 5)
  | 6 => { s with val := (s.val.1, s.val.2 ++ takeNums rest), save := some 6 }
  | 7 => (readInt (fun q x => ({ x.1 with cvodeSteps := q }, x.2)) 100 rest s).seen 7
  | 8 => (readInt (fun q x => ({ x.1 with cvodeOrder := q }, x.2)) 5 rest s).seen 8
  | 9 => kinEqual rest s
  | 10 => readInt (fun q x => ({ x.1 with count := q }, x.2)) 0 rest s
  | 11 => kinEqual rest s
  | _ => s

/-- State of the nested component reader. -/
abbrev KinIn := (Name × Bool) × RS KinRead

/-- `cxxKinetics::Find` (cxxKinetics.cxx:463-475). -/
def findKin (cs : List KinComp) (w : Name) : Option KinComp :=
  cs.find? (fun c => lower c.name == lower w)

/-- Start of a component (cxxKinetics.cxx:261-279). -/
def kineticsEnter (n : Nat) (rest : List Tok) (s : RS KineticsRead) :
    Option (RS KineticsRead × Option KinIn) :=
  if n = 4 then
    match rest with
    | .word w :: _ =>
      match findKin s.val.1.comps w with
      | some c => some (s, some ((w, true), ⟨(c, []), none, [], 0⟩))
      | none   => some (s, some ((w, false), ⟨(newKinComp w, []), none, [], 0⟩))
    | _ => some (s.error, none)
  else none

/-- End of a component (cxxKinetics.cxx:279-293). -/
def kineticsClose (s : RS KineticsRead) (i : KinIn) : RS KineticsRead :=
  { s with
    val := ({ s.val.1 with
      comps := if i.1.2 then
          s.val.1.comps.map (fun c => if lower c.name = lower i.1.1 then KinRead.result i.2.val
            else c)
        else s.val.1.comps ++ [KinRead.result i.2.val] }, s.val.2)
    errs := s.errs + i.2.errs }

/-- The loop of `cxxKinetics::read_raw` (cxxKinetics.cxx:187-376): unknown input is reported and
ends it. -/
def kineticsStep : Line → RS KineticsRead × Option KinIn → Res (RS KineticsRead × Option KinIn) :=
  nestStep
    (outerStep kineticsOpts kineticsAct kineticsEnter (fun s => .stop (s.error, none)))
    (tagStep kinCompStep)
    kineticsClose

/-- Default `cxxKinetics` (cxxKinetics.cxx:30-45). -/
def newKinetics (h : Head) : Kinetics := ⟨h, 1, 3, 500, false, 100, 5, [], false, 0, [], []⟩

/-- The steps replace the old ones if any were read (cxxKinetics.cxx:377-380). -/
def KineticsRead.result (x : KineticsRead) : Kinetics :=
  if x.2 = [] then x.1 else { x.1 with steps := x.2 }

/-- `cxxKinetics::read_raw` (cxxKinetics.cxx:161-421) on a new object: the object, the number of
errors and the lines left. -/
def readKinetics : List Line → Kinetics × Nat × List Line
  | [] => (newKinetics ⟨1, 1, []⟩, 1, [])
  | h :: ls =>
    let r := feed kineticsStep ls
      (⟨(newKinetics (readHead h), []), none, [0, 1, 2, 3, 7, 8], 0⟩, none)
    let s := (nestEnd kineticsClose r.1).check
    (KineticsRead.result s.val, s.errs, r.2)

end Verif.Raw
