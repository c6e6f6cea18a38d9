import Verif.Setters.Model
import Verif.FString.Model

/-!
# Running input in the instances (C62)

Model of `RunString`, `RunFile`, `LoadDatabase`, `SetSpeciesSaveOn` and `HandleErrorsInternal`
(`/repo/src/PhreeqcRM.cpp`) in the builds without MPI.

What PHREEQC does with an input is a parameter (`Engine`): any function from the chemistry of an
instance and an input to a number of errors and a new chemistry, or an exception. Instances
`0 .. nthreads-1` are the workers, `nthreads` is InitialPhreeqc, `nthreads + 1` is Utility.

With OpenMP the turns of a loop are run in some order by several threads. The order is a
parameter, and so is the assignment of turns to threads; each turn touches its own instance
and its own element of `r_vector`, and the shared messages: `ErrorMessage` is within
`omp critical`, `OutputMessage` (7535-7539) is not, so that two threads calling it is a data race.
-/

namespace Verif.Routing

open Verif.Setters Verif.FString

/-- What `IPhreeqc::RunString` and the like do (IPhreeqc.cpp:626-927): they return the number of
input errors or rethrow a foreign exception. -/
inductive Run (σ : Type) where
  | finished (errors : Nat) (chem : σ)
  | threw (chem : σ)

/-- The chemistry afterwards. -/
def Run.chem {σ : Type} : Run σ → σ
  | .finished _ s => s
  | .threw s => s

/-- Behaviour of PHREEQC; the string is what the C string passed holds. -/
structure Engine (σ : Type) where
  runString : σ → Str → Run σ
  runFile : σ → Str → Run σ
  loadDatabase : σ → Str → Run σ
  /-- `GetErrorString` -/
  errorString : σ → String
  /-- `GetOutputString` -/
  outputString : σ → String

/-- An instance with the switches set by these functions. -/
structure Inst (σ : Type) where
  chem : σ
  outputFileOn : Bool
  logFileOn : Bool
  selectedStringOn : Bool
  selectedFileOn : Bool
  outputStringOn : Bool
  saveSpecies : Bool

/-- The members of `PhreeqcRM` used here. -/
structure RM (σ : Type) where
  nthreads : Nat
  insts : List (Inst σ)
  mode : Int               -- error_handler_mode
  err : List String        -- phreeqcrm_error_string
  out : List String        -- output file
  print : Bool × Bool × Bool   -- print_chemistry_on
  chemistryFile : Str
  databaseFile : Str
  speciesSaveOn : Bool

/-- The flag for the output of instance `n` (PhreeqcRM.cpp:10607-10618, 10747-10758). -/
def printFlag (p : Bool × Bool × Bool) (nthreads n : Nat) : Bool :=
  if n < nthreads then p.1 else if n = nthreads then p.2.1 else p.2.2

/-- The vector `run` (PhreeqcRM.cpp:10545-10566, 10683-10704). -/
def select (workers initial utility : Bool) (nthreads n : Nat) : Bool :=
  if n < nthreads then workers
  else if n = nthreads then initial
  else if n = nthreads + 1 then utility
  else false

/-- What one turn leaves behind. -/
structure Turn (σ : Type) where
  inst : Inst σ
  code : Int
  err : List String
  out : List String

/-- The switches set before the run (PhreeqcRM.cpp:10600-10618, 10740-10758). -/
def Inst.prepare {σ : Type} (i : Inst σ) (output : Bool) : Inst σ :=
  { i with outputFileOn := false, logFileOn := false, selectedStringOn := false
           selectedFileOn := false, outputStringOn := output }

/-- `RunFileThread` (PhreeqcRM.cpp:10593-10643) and, with `announce`, `RunStringThread`
(10733-10782). The code is that of the `IRM_RESULT` returned. -/
def thread {σ : Type} (eng : Engine σ) (announce : Bool) (run : σ → Run σ) (output : Bool)
    (what : String) (n : Nat) (i : Inst σ) : Turn σ :=
  let i := i.prepare output
  match run i.chem with
  | .finished 0 s =>
    ⟨{ i with chem := s }, IRM.ok.toInt, [],
      if i.outputStringOn then [eng.outputString s] else []⟩
  | .finished (_ + 1) s =>
    ⟨{ i with chem := s }, IRM.fail.toInt,
      if announce then ["ERROR: " ++ eng.errorString s] else [], []⟩
  | .threw s =>
    ⟨{ i with chem := s }, IRM.fail.toInt,
      ["ERROR: " ++ what ++ " failed in worker " ++ toString n ++
        "from an unhandled exception.\n"], []⟩

/-- The part of the module that the loop changes. -/
structure Loop (σ : Type) where
  insts : List (Inst σ)
  codes : List Int
  err : List String
  out : List String
  printed : List Nat     -- instances that called OutputMessage

/-- One turn of the loop (PhreeqcRM.cpp:10572-10578, 10710-10716). -/
def turn {σ : Type} (sel : Nat → Bool) (th : Nat → Inst σ → Turn σ) (l : Loop σ) (n : Nat) :
    Out (Loop σ) :=
  if sel n then
    match l.insts[n]? with
    | none => .ub
    | some i =>
      let t := th n i
      .ok { insts := l.insts.set n t.inst, codes := l.codes.set n t.code, err := l.err ++ t.err
            out := l.out ++ t.out
            printed := if t.out = [] then l.printed else l.printed ++ [n] }
  else .ok l

/-- Two of the given turns belong to different threads. -/
def races (threads : Option (Nat → Nat)) (ns : List Nat) : Bool :=
  match threads with
  | none => false
  | some f => ns.any (fun n => ns.any (fun m => decide (f n ≠ f m)))

/-- The loop in the given order; a data race is undefined. -/
def loop {σ : Type} (threads : Option (Nat → Nat)) (order : List Nat) (sel : Nat → Bool)
    (th : Nat → Inst σ → Turn σ) (l : Loop σ) : Out (Loop σ) := do
  let r ← order.foldlM (turn sel th) l
  if races threads r.printed then .ub else .ok r

/-- The messages of `HandleErrorsInternal` (PhreeqcRM.cpp:5486-5493) from element `n` on. -/
def errorMessages {σ : Type} (eng : Engine σ) (insts : List (Inst σ)) :
    Nat → List Int → Out (List String)
  | _, [] => .ok []
  | n, c :: cs =>
    if c ≠ 0 then
      match insts[n]? with
      | none => .ub
      | some i => do
        let rest ← errorMessages eng insts (n + 1) cs
        .ok (eng.errorString i.chem :: rest)
    else errorMessages eng insts (n + 1) cs

/-- The loop and what follows it (PhreeqcRM.cpp:10545-10589, 10683-10728). -/
def runAll {σ : Type} (eng : Engine σ) (threads : Option (Nat → Nat)) (order : List Nat)
    (sel : Nat → Bool) (th : Nat → Inst σ → Turn σ) (name : String) (s : RM σ) :
    Out (RM σ × Ret) := do
  let l ← loop threads order sel th
    ⟨s.insts, List.replicate (s.nthreads + 2) 0, s.err, s.out, []⟩
  let msgs ← errorMessages eng l.insts 0 l.codes
  let r : IRM := if l.codes.any (· ≠ 0) then .fail else .ok
  let p := returnHandler s.mode (l.err ++ msgs) r name
  .ok ({ s with insts := l.insts, err := p.1, out := l.out }, p.2)

/-- `RunString` (PhreeqcRM.cpp:10647-10729). -/
def runString {σ : Type} (eng : Engine σ) (threads : Option (Nat → Nat)) (order : List Nat)
    (workers initial utility : Bool) (input : Str) (s : RM σ) : Out (RM σ × Ret) :=
  runAll eng threads order (select workers initial utility s.nthreads)
    (fun n => thread eng true (fun c => eng.runString c (cstr input))
      (printFlag s.print s.nthreads n) "RunString" n)
    "PhreeqcRM::RunString" { s with err := [] }

/-- `SetChemistryFileName` (PhreeqcRM.cpp:11019-11043) for a name that is already trimmed. -/
def setChemistryFileName {σ : Type} (s : RM σ) (name : Str) : RM σ × Ret :=
  let r : IRM := if name = [] then .invalidArg else .ok
  let p := returnHandler s.mode [] r "PhreeqcRM::SetChemistryFileName"
  ({ s with chemistryFile := name, err := p.1 }, p.2)

/-- `RunFile` (PhreeqcRM.cpp:10511-10590): the value returned by `SetChemistryFileName` is not
looked at; in the error modes 1 and 2 it does not return. -/
def runFile {σ : Type} (eng : Engine σ) (threads : Option (Nat → Nat)) (order : List Nat)
    (workers initial utility : Bool) (name : Str) (s : RM σ) : Out (RM σ × Ret) :=
  let (s, r) := setChemistryFileName s name
  match r with
  | .value _ =>
    runAll eng threads order (select workers initial utility s.nthreads)
      (fun n => thread eng false (fun c => eng.runFile c (cstr s.chemistryFile))
        (printFlag s.print s.nthreads n) "RunFile" n)
      "PhreeqcRM::RunFile" s
  | r => .ok (s, r)

/-! ## Loading a database -/

/-- `save_species` of the first `nthreads + 1` instances (PhreeqcRM.cpp:6981-6984,
12220-12223). -/
def setSaveSpecies {σ : Type} (s : RM σ) : RM σ :=
  { s with insts := s.insts.mapIdx (fun n i =>
      if n < s.nthreads + 1 then { i with saveSpecies := s.speciesSaveOn } else i) }

/-- `SetSpeciesSaveOn` (PhreeqcRM.cpp:12198-12226). -/
def setSpeciesSaveOn {σ : Type} (t : Bool) (s : RM σ) : RM σ :=
  setSaveSpecies { s with err := [], speciesSaveOn := t }

/-- The two loops of `LoadDatabase` without OpenMP (PhreeqcRM.cpp:6960-6967): the instances, the
codes and whether an exception ended the loops. Loading clears the instance, and with it
`save_species` (Phreeqc.cpp:569). -/
def loadLoop {σ : Type} (eng : Engine σ) (file : Str) : List (Inst σ) → List (Inst σ) × List Int × Bool
  | [] => ([], [], false)
  | i :: is =>
    match eng.loadDatabase i.chem (cstr file) with
    | .threw c => ({ i with chem := c, saveSpecies := false } :: is, [], true)
    | .finished n c =>
      let r := loadLoop eng file is
      ({ i with chem := c, saveSpecies := false } :: r.1, (n : Int) :: r.2.1, r.2.2)

/-- The end of `LoadDatabase` (PhreeqcRM.cpp:6981-6995). -/
def loadEnd {σ : Type} (r : IRM) (s : RM σ) : RM σ × Ret :=
  let s := setSaveSpecies s
  let p := returnHandler s.mode s.err r "PhreeqcRM::LoadDatabase"
  ({ s with err := p.1 }, p.2)

/-- `LoadDatabase` (PhreeqcRM.cpp:6931-6996) without OpenMP, for a name that is already trimmed
(`SetDatabaseFileName`, 11551-11569, trims it). The number of instances must be `nthreads + 2`. -/
def loadDatabase {σ : Type} (eng : Engine σ) (name : Str) (s : RM σ) : Out (RM σ × Ret) :=
  let p := returnHandler s.mode [] (if name = [] then .invalidArg else .ok)
    "PhreeqcRM::SetDatabaseFileName"
  let s := { s with databaseFile := name, err := p.1 }
  match p.2 with
  | .exited n => .ok (s, .exited n)
  | .threw => .ok (loadEnd .fail s)
  | .value c =>
    if c ≠ .ok then do
      let msgs ← errorMessages eng s.insts 0 [c.toInt]
      .ok (loadEnd .fail { s with err := s.err ++ msgs })
    else if s.insts.length ≠ s.nthreads + 2 then .ub
    else
      let r := loadLoop eng s.databaseFile s.insts
      let s := { s with insts := r.1 }
      if r.2.2 then .ok (loadEnd .fail s)
      else do
        let msgs ← errorMessages eng s.insts 0 r.2.1
        .ok (loadEnd (if r.2.1.any (· ≠ 0) then .fail else .ok) { s with err := s.err ++ msgs })

end Verif.Routing
