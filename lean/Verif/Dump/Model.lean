import Verif.State.Model
import Verif.Transfer.Model
import Verif.PartitionUZ.Model

/-!
# Dumping the module

Model of `PhreeqcRM::DumpModule` in the build without MPI, `/repo/src/PhreeqcRM.cpp:2443-2617`
(`NEWDUMP`), and of dumping and reading storage bins,
`/repo/src/IPhreeqcPhast/IPhreeqc/phreeqcpp/StorageBin.cxx:195-342, 813-1103`.

The text of one entity is a parameter `render`; the text of an entity is not modelled.
The compressed file is the text written to it. Writing does not fail (`gzprintf`).
-/

namespace Verif.Dump

open Verif.Store Verif.State Verif.Transfer
open Verif.OMap (SMap)

/-- A record of a dump: kind and entity; the entity is written with its own number. -/
abbrev Record (α : Type) := Kind × Ent α

/-- Kinds written by `dump_raw_range` in order, StorageBin.cxx:917-951, and by `dump_raw`,
StorageBin.cxx:812-846: pressures are missing. -/
def dumpKinds : List Kind :=
  [.solution, .exchange, .gasPhase, .kinetics, .ppAssemblage, .ssAssemblage, .surface, .mix,
    .reaction, .temperature]

/-- `Utilities::Rxn_dump_raw_range`,
`/repo/src/IPhreeqcPhast/IPhreeqc/phreeqcpp/Phreeqc.h:1912-1926`. -/
def rangeOfKind {α : Type} (m : SMap Int (Ent α)) (k : Kind) (r : Int × Int) : List (Record α) :=
  (rangeCells r).filterMap (fun i => if i < 0 then none else (OMap.find m i).map (fun e => (k, e)))

/-- `cxxStorageBin::dump_raw_range`, StorageBin.cxx:917-951. -/
def dumpRange {α : Type} (b : Maps α) (r : Int × Int) : List (Record α) :=
  dumpKinds.flatMap (fun k => rangeOfKind (b k) k r)

/-- `Utilities::Rxn_dump_raw`, Phreeqc.h:1896-1910. -/
def dumpKind {α : Type} (m : SMap Int (Ent α)) (k : Kind) : List (Record α) :=
  (m.filter (fun p => 0 ≤ p.1 ∧ 0 ≤ p.2.nUser)).map (fun p => (k, p.2))

/-- `cxxStorageBin::dump_raw(s_oss, indent)`, StorageBin.cxx:812-846. -/
def dumpRaw {α : Type} (b : Maps α) : List (Record α) :=
  dumpKinds.flatMap (fun k => dumpKind (b k) k)

/-- Kinds known to `cxxStorageBin::read_raw`, StorageBin.cxx:971-1079. -/
def readKinds : List Kind :=
  [.solution, .exchange, .gasPhase, .kinetics, .ppAssemblage, .ssAssemblage, .surface,
    .temperature, .reaction, .mix]

/-- Storing one entity read, e.g. StorageBin.cxx:975-979; other keywords are skipped
(1080-1092). -/
def readRecord {α : Type} (b : Maps α) (x : Record α) : Maps α :=
  if x.1 ∈ readKinds then
    fun k => if k = x.1 then OMap.insert (b k) x.2.nUser x.2 else b k
  else b

/-- `cxxStorageBin::read_raw` into an empty bin, StorageBin.cxx:953-1097. -/
def readRaw {α : Type} (xs : List (Record α)) : Maps α := xs.foldl readRecord (fun _ => [])

/-- Kinds merged by `Add_uz`, StorageBin.cxx:195-342. -/
def uzMergeKinds : List Kind :=
  [.exchange, .gasPhase, .kinetics, .ppAssemblage, .ssAssemblage, .surface]

/-- One block of `Add_uz`, e.g. StorageBin.cxx:204-224; `mix k a b` is the entity made of one part
of `a` (unsaturated zone) and one part of `b`. -/
def addUzKind {α : Type} (mix : Kind → α → α → α) (k : Kind) (m uz : SMap Int (Ent α)) :
    SMap Int (Ent α) :=
  uz.foldl (fun m p =>
    match OMap.find m p.2.nUser with
    | none => OMap.insert m p.2.nUser p.2
    | some e => OMap.insert m p.2.nUser ⟨p.2.nUser, mix k p.2.val e.val⟩) m

/-- `cxxStorageBin::Add_uz`, StorageBin.cxx:195-342. -/
def addUz {α : Type} (mix : Kind → α → α → α) (b uz : Maps α) : Maps α :=
  fun k => if k ∈ uzMergeKinds then addUzKind mix k (b k) (uz k) else b k

/-- What one worker has: range, reactants and unsaturated-zone bin. -/
structure DWorker (α : Type) where
  range : Int × Int
  rx    : Maps α
  uz    : Maps α

/-- The bin to be dumped, `/repo/src/PhreeqcRM.cpp:2474-2483`. -/
def szUz {α : Type} (mix : Kind → α → α → α) (partition : Bool) (w : DWorker α) : Maps α :=
  if partition then addUz mix (toBin w.rx) w.uz else toBin w.rx

/-- The number of blocks, `/repo/src/PhreeqcRM.cpp:2485-2495`; `block` is 10000 in the code. -/
def nBlocks (block : Nat) (rs : List (Int × Int)) : Int :=
  let m : Int := rs.foldl (fun (m : Int) r => if r.2 - r.1 + 1 > m then r.2 - r.1 + 1 else m) 0
  m / block + (if m % block > 0 then 1 else 0)

/-- The cells of a range in block `ib`, `/repo/src/PhreeqcRM.cpp:2512-2518` and `2531-2535`. -/
def piece (block : Nat) (r : Int × Int) (ib : Nat) : Option (Int × Int) :=
  if r.1 + ib * block ≤ r.2 then
    some (r.1 + ib * block,
      if r.1 + (ib + 1) * block - 1 > r.2 then r.2 else r.1 + (ib + 1) * block - 1)
  else none

/-- The records of one worker in one block, `/repo/src/PhreeqcRM.cpp:2527-2540`. -/
def blockRecords {α : Type} (block ib : Nat) (p : (Int × Int) × Maps α) : List (Record α) :=
  match piece block p.1 ib with
  | none => []
  | some q => dumpRange p.2 q

/-- The records of all workers in all blocks in the order of the file,
`/repo/src/PhreeqcRM.cpp:2507-2559`. The workers fill their own strings in parallel. -/
def dumpRecords {α : Type} (block : Nat) (ps : List ((Int × Int) × Maps α)) : List (Record α) :=
  (List.range (nBlocks block (ps.map Prod.fst)).toNat).flatMap (fun ib =>
    ps.flatMap (blockRecords block ib))

/-- `strlen` and `%s`: a string up to the first NUL. -/
def cstr (s : List Char) : List Char := s.takeWhile (fun c => c ≠ Char.ofNat 0)

/-- Writing one string in pieces, `/repo/src/PhreeqcRM.cpp:2543-2558`; `gz` is 4094 in the code. -/
def writeChunks (gz : Nat) (s : List Char) : List Char :=
  if 0 < gz ∧ s ≠ [] then s.take gz ++ writeChunks gz (s.drop gz) else []
termination_by s.length
decreasing_by
  simp only [List.length_drop]
  have : 0 < s.length := List.length_pos_iff.mpr (by rename_i h; exact h.2)
  omega

/-- The text written. -/
def dumpText {α : Type} (block gz : Nat) (render : Record α → List Char)
    (ps : List ((Int × Int) × Maps α)) : List Char :=
  (List.range (nBlocks block (ps.map Prod.fst)).toNat).flatMap (fun ib =>
    ps.flatMap (fun p => writeChunks gz (cstr ((blockRecords block ib p).flatMap render))))

/-- The number of cells of a range in a block. -/
def pieceSize (block ib : Nat) (r : Int × Int) : Int :=
  match piece block r ib with
  | none => 0
  | some q => q.2 - q.1 + 1

/-- Cells counted for the progress message up to and including a block,
`/repo/src/PhreeqcRM.cpp:2509-2520`. -/
def blockCount (block : Nat) (rs : List (Int × Int)) : Nat → Int
  | 0 => 0
  | ib + 1 => rs.foldl (fun c r => c + pieceSize block ib r) (blockCount block rs ib)

/-- Largest value of a C++ `int`. -/
def intMax : Int := 2147483647

/-- `block_count * 100` of the progress message, `/repo/src/PhreeqcRM.cpp:2576-2577`, overflows in
some block. -/
def progressOverflows (block : Nat) (rs : List (Int × Int)) : Bool :=
  (List.range (nBlocks block rs).toNat).any (fun ib =>
    blockCount block rs (ib + 1) * 100 > intMax)

/-- `PhreeqcRM::DumpModule`: result code and contents of the file. `opened` tells whether the
file can be opened, `old` is what it contained. -/
def dumpModule {α : Type} (mix : Kind → α → α → α) (render : Record α → List Char)
    (partition dumpOn append opened : Bool) (old : List Char) (ws : List (DWorker α)) :
    Out (IRM × List Char) :=
  if !dumpOn then .ok (.ok, old)
  else if !opened then .ok (.fail, old)
  else if progressOverflows 10000 (ws.map DWorker.range) then .ub
  else .ok (.ok, (if append then old else []) ++
    dumpText 10000 4094 render (ws.map (fun w => (w.range, szUz mix partition w))))

end Verif.Dump
