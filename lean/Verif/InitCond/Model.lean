import Verif.Grid.Model
import Verif.Mixing.Partition

/-!
# Initial conditions: `InitialPhreeqc2Module`

`CellInitialize` (`/repo/src/PhreeqcRM.cpp:410-699`), `InitialPhreeqc2Module` (6214-6409) and
the seven calls for one kind of reactant (6058-6212), without MPI.

Simplifications: the input `DELETE; -cells` does not fail; of the messages only those about
undefined numbers are kept; `ReturnHandler` is modelled in `Verif.Errors`; the product
`7 * nxyz` of the size checks, an `int` in the code, does not overflow; the two `assert`s on
porosity and volume are off (release build).
-/

namespace Verif.InitCond

open Verif.Store Verif.Mapping Verif.Grid Verif.Transfer Verif.Mixing

/-- What the code needs from the reactant classes: `Get_soln_vol` and the mixing constructor of
each kind. -/
structure Chem (α : Type) where
  vol : α → ℚ
  mix : Kind → (Int → Option α) → Mix → Out α

/-- Grid arrays and unit settings (`porosity_root`, `saturation_root`, `rv_root`,
`units_PPassemblage`, ...). -/
structure Settings where
  por : List ℚ
  sat : List ℚ
  rv : List ℚ
  units : Kind → Nat

/-- The arguments of `InitialPhreeqc2Module`. -/
structure Args where
  ic1 : List Int
  ic2 : List Int
  fr : List ℚ
  deriving DecidableEq, Repr

/-- One of the seven blocks of `CellInitialize`: its position in the arrays, the kind of
reactant, and the kind in which the second number is looked up. -/
structure Block where
  pos : Nat
  kind : Kind
  second : Kind
  deriving DecidableEq, Repr

/-- The blocks in the order of the code (`/repo/src/PhreeqcRM.cpp:455, 495, 531, 564, 597, 630,
664`). The second number of kinetics is looked up among the solid solutions (line 673). -/
def blocks : List Block :=
  [⟨0, .solution, .solution⟩, ⟨1, .ppAssemblage, .ppAssemblage⟩, ⟨2, .exchange, .exchange⟩,
   ⟨3, .surface, .surface⟩, ⟨4, .gasPhase, .gasPhase⟩, ⟨5, .ssAssemblage, .ssAssemblage⟩,
   ⟨6, .kinetics, .ssAssemblage⟩]

/-- The mixture for a solution (`/repo/src/PhreeqcRM.cpp:476-486`). A volume of zero gives a
factor that is not a number or infinite: `.ub`. -/
def solutionMix {α : Type} (ch : Chem α) (pb : Bin α) (por sat rv : ℚ) (n1 n2 : Int) (f1 : ℚ) :
    Out Mix :=
  match pb .solution n1 with
  | none => .ub
  | some e1 =>
    if ch.vol e1 = 0 then .ub
    else if 0 ≤ n2 then
      match pb .solution n2 with
      | none => .ub
      | some e2 =>
        if ch.vol e2 = 0 then .ub
        else .ok (Mix.add (Mix.add [] n1 (f1 * por * sat * rv / ch.vol e1)) n2
          ((1 - f1) * por * sat * rv / ch.vol e2))
    else .ok (Mix.add [] n1 (f1 * por * sat * rv / ch.vol e1))

/-- `porosity_factor` (`/repo/src/PhreeqcRM.cpp:447-450`). -/
def porosityFactor (por rv : ℚ) : List ℚ := [rv, rv * por, rv * (1 - por)]

/-- The mixture for the other kinds (`/repo/src/PhreeqcRM.cpp:516-521`). -/
def solidMix (units : Nat) (por rv : ℚ) (n1 n2 : Int) (f1 : ℚ) : Out Mix := do
  let pf ← idx (porosityFactor por rv) (units : Int)
  let m := if 0 ≤ n2 then Mix.add (Mix.add [] n1 f1) n2 (1 - f1) else Mix.add [] n1 f1
  .ok (Mix.multiply m pf)

/-- The mixture of a block. -/
def blockMix {α : Type} (ch : Chem α) (pb : Bin α) (units : Kind → Nat) (por sat rv : ℚ)
    (k : Kind) (n1 n2 : Int) (f1 : ℚ) : Out Mix :=
  if k = .solution then solutionMix ch pb por sat rv n1 n2 f1
  else solidMix (units k) por rv n1 n2 f1

/-- Messages of a block (`/repo/src/PhreeqcRM.cpp:457-470`). -/
def missing {α : Type} (pb : Bin α) (b : Block) (n1 n2 : Int) : List (Kind × Int) :=
  (if 0 ≤ n1 ∧ pb b.kind n1 = none then [(b.kind, n1)] else []) ++
  (if 0 ≤ n2 ∧ pb b.second n2 = none then [(b.kind, n2)] else [])

/-- One block (`/repo/src/PhreeqcRM.cpp:455-490` and so on). The state holds the messages so far
(`rtn == IRM_OK` when there is none) and `initial_bin`. -/
def runBlock {α : Type} (ch : Chem α) (pb : Bin α) (units : Kind → Nat) (nxyz : Nat) (a : Args)
    (por sat rv : ℚ) (j : Nat) (n : Int) (st : List (Kind × Int) × Bin α) (b : Block) :
    Out (List (Kind × Int) × Bin α) := do
  let n1 ← idx a.ic1 ((b.pos * nxyz + j : Nat) : Int)
  let n2 ← idx a.ic2 ((b.pos * nxyz + j : Nat) : Int)
  let errs := st.1 ++ missing pb b n1 n2
  if errs = [] then do
    let f1 ← idx a.fr ((b.pos * nxyz + j : Nat) : Int)
    if 0 ≤ n1 then do
      let m ← blockMix ch pb units por sat rv b.kind n1 n2 f1
      let e ← ch.mix b.kind (pb b.kind) m
      .ok (errs, Store.set st.2 b.kind n e)
    else .ok (errs, st.2)
  else .ok (errs, st.2)

/-- `cxxStorageBin2phreeqc(sb)` (structures.cpp:3281-3379): all kinds, all numbers. -/
def overlay {α : Type} (p sb : Bin α) : Bin α := fun k n => (sb k n).or (p k n)

/-- `CellInitialize` (`/repo/src/PhreeqcRM.cpp:410-699`): messages and the new contents of
worker 0. -/
def cellInitialize {α : Type} (ch : Chem α) (pb : Bin α) (st : Settings) (nxyz : Nat) (a : Args)
    (j : Nat) (n : Int) (w0 : Bin α) : Out (List (Kind × Int) × Bin α) := do
  let por ← idx st.por (j : Int)
  let rv ← idx st.rv (j : Int)
  let sat ← idx st.sat (j : Int)
  let r ← blocks.foldlM (runBlock ch pb st.units nxyz a por sat rv j n) ([], Store.empty)
  if r.1 = [] then .ok ([], overlay w0 r.2) else .ok (r.1, w0)

/-- State of the loop over cells: `return_value != IRM_OK`, messages, worker 0. -/
structure LoopState (α : Type) where
  failed : Bool
  errs : List (Kind × Int)
  w0 : Bin α

/-- One pass of the loop over cells (`/repo/src/PhreeqcRM.cpp:6308-6355`). -/
def loopStep {α : Type} (ch : Chem α) (pb : Bin α) (st : Settings) (s : MapState) (a : Args)
    (l : LoopState α) (i : Nat) : Out (LoopState α) := do
  let cells ← idx s.backward (i : Int)
  let j ← idx cells 0
  let por ← idx st.por (j : Int)
  let rv ← idx st.rv (j : Int)
  if por < 0 then .ok { l with failed := true }
  else if rv < 0 then .ok { l with failed := true }
  else do
    let r ← cellInitialize ch pb st s.nxyz a j (i : Int) l.w0
    .ok { failed := l.failed || !r.1.isEmpty, errs := l.errs ++ r.1, w0 := r.2 }

/-- The input `DELETE; -cells` followed by numbers; without a number everything is deleted
(`/repo/src/IPhreeqcPhast/IPhreeqc/phreeqcpp/StorageBinList.cpp:302-316`). -/
def deleteCells {α : Type} (b : Bin α) (cells : List Int) : Bin α :=
  if cells = [] then Store.empty else cells.foldl deleteCell b

/-- Moving the cells of worker `n` from worker 0 (`/repo/src/PhreeqcRM.cpp:6379-6392`). -/
def distributeTo {α : Type} (w : Nat → Bin α) (p : (Int × Int) × Nat) : Nat → Bin α :=
  let wn := (rangeCells p.1).foldl
    (fun b c => bin2phreeqc b (phreeqc2bin (w 0) Store.empty c) c) (w p.2)
  setAt (setAt w p.2 wn) 0 (deleteCells (w 0) (rangeCells p.1))

/-- The loop over workers 1, 2, ... (`/repo/src/PhreeqcRM.cpp:6377-6393`). -/
def distribute {α : Type} (rs : List (Int × Int)) (w : Nat → Bin α) : Nat → Bin α :=
  (rs.zipIdx.drop 1).foldl distributeTo w

/-- What a call leaves: the code, the undefined numbers reported, the workers. -/
structure Result (α : Type) where
  code : IRM
  errs : List (Kind × Int)
  w : Nat → Bin α

/-- `InitialPhreeqc2Module` (`/repo/src/PhreeqcRM.cpp:6214-6409`); `pb` is the contents of the
InitialPhreeqc instance. -/
def initialPhreeqc2Module {α : Type} (ch : Chem α) (pb : Bin α) (st : Settings) (s : MapState)
    (a : Args) (w : Nat → Bin α) : Out (Result α) :=
  if a.ic1.length ≠ 7 * s.nxyz ∨ (0 < a.ic2.length ∧ a.ic2.length ≠ 7 * s.nxyz) ∨
      (0 < a.fr.length ∧ a.fr.length ≠ 7 * s.nxyz) then .ok ⟨.fail, [], w⟩
  else do
    let l ← (List.range s.count).foldlM (loopStep ch pb st s a) ⟨false, [], w 0⟩
    if l.failed then .ok ⟨.fail, l.errs, setAt w 0 l.w0⟩
    else .ok ⟨.ok, [], distribute s.ranges (setAt w 0 l.w0)⟩

/-- `ic[pos * nxyz + i] = v[i]` for `i < nxyz` (`/repo/src/PhreeqcRM.cpp:6069-6072`). -/
def fillBlock (nxyz pos : Nat) (v ic : List Int) : Out (List Int) :=
  (List.range nxyz).foldlM (fun ic (i : Nat) => do
    let x ← idx v (i : Int)
    if pos * nxyz + i < ic.length then .ok (ic.set (pos * nxyz + i) x) else .ub) ic

/-- `InitialSolutions2Module` (`pos` 0), `InitialEquilibriumPhases2Module` (1),
`InitialExchanges2Module` (2), `InitialSurfaces2Module` (3), `InitialGasPhases2Module` (4),
`InitialSolidSolutions2Module` (5), `InitialKinetics2Module` (6)
(`/repo/src/PhreeqcRM.cpp:6058-6212`). -/
def initialOne2Module {α : Type} (ch : Chem α) (pb : Bin α) (st : Settings) (s : MapState)
    (pos : Nat) (v : List Int) (w : Nat → Bin α) : Out (Result α) := do
  let ic ← fillBlock s.nxyz pos v (List.replicate (s.nxyz * 7) (-1))
  initialPhreeqc2Module ch pb st s
    ⟨ic, List.replicate (s.nxyz * 7) (-1), List.replicate (s.nxyz * 7) 1⟩ w

/-! ## The reactants of the code -/

/-- A solution or another reactant. -/
inductive Entity
  | sol (s : Solution)
  | rx (r : Reactant)
  deriving DecidableEq, Repr

def Entity.asSol : Entity → Option Solution | .sol s => some s | _ => none
def Entity.asRx : Entity → Option Reactant | .rx r => some r | _ => none

/-- The entities of one class in a map. -/
def view {E : Type} (as : Reactant → Option E) (ents : Int → Option Entity) (n : Int) : Option E :=
  ((ents n).bind Entity.asRx).bind as

/-- The mixing constructors used by `CellInitialize` (`/repo/src/PhreeqcRM.cpp:487, 522, ...`). -/
def realMix (k : Kind) (ents : Int → Option Entity) (m : Mix) : Out Entity :=
  match k with
  | .solution => do
    let s ← Solution.mix (fun n => (ents n).bind Entity.asSol) m
    .ok (.sol s)
  | .exchange => .ok (.rx (.exch (Exchange.mix (view Reactant.asExch ents) m)))
  | .ppAssemblage => .ok (.rx (.pp (PPAssemblage.mix (view Reactant.asPP ents) m)))
  | .gasPhase => .ok (.rx (.gas (GasPhase.mix (view Reactant.asGas ents) m)))
  | .ssAssemblage => .ok (.rx (.ss (SSAssemblage.mix (view Reactant.asSS ents) m)))
  | .kinetics => .ok (.rx (.kin (Kinetics.mix (view Reactant.asKin ents) m)))
  | .surface => .ok (.rx (.surf (Surface.mix (view Reactant.asSurf ents) m)))
  | _ => .ub

/-- The classes of the code. Only solutions are asked for their volume. -/
def real : Chem Entity where
  vol e := match e with
    | .sol s => s.solnVol
    | .rx _ => 0
  mix := realMix

end Verif.InitCond
