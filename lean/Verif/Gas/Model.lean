import Verif.Grid.Model
import Verif.Mixing.Reactants
import Verif.State.Model

/-!
# Gas phases set and read by the transport code

* `SetGasCompMoles` `/repo/src/PhreeqcRM.cpp:11280-11424`, `SetGasPhaseVolume` `:11429-11535`.
* `GetGasCompMoles` `:3858-3905`, `GetGasCompPressures` `:3970-4020`, `GetGasCompPhi`
  `:4140-4190`, `GetGasPhaseVolume` `:4268-4303`.
* `cxxGasPhase::Delete_component`, `Set_component_moles`, `Get_component_*`, `Find_comp`
  `/repo/src/IPhreeqcPhast/IPhreeqc/phreeqcpp/GasPhase.cxx:490-590`.

The build without MPI; assertions are off, so a short array is read past its end. The workers
run one after another; each touches only its own gas phases. `send_gas_moles`, a flat array with
one row per reaction cell, is kept as a list of rows. The entity carries its own number
(`n_user`), as in `Verif.State`.
-/

namespace Verif.Gas

open Verif.Mapping Verif.Grid Verif.Transfer Verif.OMap Verif.NameDouble Verif.Mixing Verif.State

/-- `Rxn_gas_phase_map` of one worker. -/
abbrev GasMap := SMap Int (Ent GasPhase)

/-- `cxxGasPhase::Delete_component`, GasPhase.cxx:490-501: the first match only. -/
def deleteComp : List GasComp → Name → List GasComp
  | [], _ => []
  | c :: cs, n => if sameNocase c.phaseName n then cs else c :: deleteComp cs n

/-- `cxxGasComp temp_comp` with a name and moles, GasComp.cxx:30-41. -/
def newComp (n : Name) (m : ℚ) : GasComp := ⟨n, 0, m, 0, 0, 0, 0⟩

/-- The part of `cxxGasPhase::Set_component_moles` for non-negative moles, GasPhase.cxx:511-522. -/
def setOrPush : List GasComp → Name → ℚ → List GasComp
  | [], n, m => [newComp n m]
  | c :: cs, n, m =>
    if sameNocase c.phaseName n then { c with moles := m } :: cs else c :: setOrPush cs n m

/-- `cxxGasPhase::Set_component_moles`, GasPhase.cxx:503-524. -/
def setCompMoles (cs : List GasComp) (n : Name) (m : ℚ) : List GasComp :=
  if m < 0 then deleteComp cs n else setOrPush cs n m

/-- `Get_component_moles`, `_p`, `_phi`, `_f`, GasPhase.cxx:525-577: -1 when absent. -/
def getComp (field : GasComp → ℚ) : List GasComp → Name → ℚ
  | [], _ => -1
  | c :: cs, n => if sameNocase c.phaseName n then field c else getComp field cs n

/-- Default constructor of `cxxGasPhase`, GasPhase.cxx:29-44. -/
def newPhase : GasPhase := ⟨.pressure, 1, 1, 0, 0, 29815 / 100, []⟩

/-- Default number of an entity, NumKeyword.cxx:25-30. -/
def newNumber : Int := 1

/-- A row of `send_gas_moles`, `/repo/src/PhreeqcRM.cpp:11293-11301`. -/
def gatherRow (s : MapState) (ng : Nat) (v : List ℚ) (i : Nat) : Out (List ℚ) := do
  let cells ← idx s.backward (i : Int)
  let j ← idx cells 0
  (List.range ng).mapM (fun k => idx v ((k * s.nxyz + j : Nat) : Int))

/-- One component of an existing gas phase, `/repo/src/PhreeqcRM.cpp:11385-11392`. -/
def updateComp (row : List ℚ) (cs : List GasComp) (p : Name × Nat) : Out (List GasComp) := do
  let v ← idx row (p.2 : Int)
  .ok (if 0 ≤ v then setCompMoles cs p.1 v else deleteComp cs p.1)

/-- One component of a new gas phase, `/repo/src/PhreeqcRM.cpp:11399-11409`. -/
def pushComp (row : List ℚ) (cs : List GasComp) (p : Name × Nat) : Out (List GasComp) := do
  let v ← idx row (p.2 : Int)
  .ok (if 0 ≤ v then cs ++ [newComp p.1 v] else cs)

/-- The body of the loop of `SetGasCompMoles` over cells, `/repo/src/PhreeqcRM.cpp:11382-11417`.
A new gas phase keeps the default number. -/
def setCell (names : List Name) (row : List ℚ) (m : GasMap) (j : Int) : Out GasMap :=
  match find m j with
  | some e => do
    let cs ← names.zipIdx.foldlM (updateComp row) e.val.comps
    if cs = [] then .ok (erase m j)
    else .ok (OMap.insert m j { e with val := { e.val with comps := cs } })
  | none => do
    let cs ← names.zipIdx.foldlM (pushComp row) []
    if cs = [] then .ok m
    else .ok (OMap.insert m j ⟨newNumber, { newPhase with comps := cs }⟩)

/-- A loop over workers and cells that changes the map of the worker. -/
def loopCells {ρ : Type} (rs : List (Int × Int)) (rows : List ρ)
    (f : ρ → GasMap → Int → Out GasMap) (w : Nat → GasMap) : Out (Nat → GasMap) :=
  (ownedCells rs).foldlM (fun w p => do
    let row ← idx rows p.2
    let m ← f row (w p.1) p.2
    .ok (setAt w p.1 m)) w

/-- `SetGasCompMoles`, `/repo/src/PhreeqcRM.cpp:11280-11424`; `names` is `GasComponentsList`. -/
def setGasCompMoles (s : MapState) (names : List Name) (v : List ℚ) (w : Nat → GasMap) :
    Out (Nat → GasMap) := do
  let rows ← (List.range s.count).mapM (gatherRow s names.length v)
  loopCells s.ranges rows (setCell names) w

/-- An entry of `send_gas_volume`, `/repo/src/PhreeqcRM.cpp:11441-11446`. -/
def gatherOne (s : MapState) (v : List ℚ) (i : Nat) : Out ℚ := do
  let cells ← idx s.backward (i : Int)
  let j ← idx cells 0
  idx v (j : Int)

/-- The body of the loop of `SetGasPhaseVolume`, `/repo/src/PhreeqcRM.cpp:11514-11530`. -/
def setVolume (x : ℚ) (m : GasMap) (j : Int) : Out GasMap :=
  if x < 0 then .ok m
  else match find m j with
    | some e => .ok (OMap.insert m j { e with val := { e.val with volume := x, type := .volume } })
    | none => .ok (OMap.insert m j ⟨newNumber, { newPhase with volume := x, type := .volume }⟩)

/-- `SetGasPhaseVolume`, `/repo/src/PhreeqcRM.cpp:11429-11535`. -/
def setGasPhaseVolume (s : MapState) (v : List ℚ) (w : Nat → GasMap) : Out (Nat → GasMap) := do
  let rows ← (List.range s.count).mapM (gatherOne s v)
  loopCells s.ranges rows setVolume w

/-- The fill value, the literal `1e30` (not `INACTIVE_CELL_VALUE`). -/
def fillValue : ℚ := 10 ^ 30

/-- `GetGasCompMoles`, `GetGasCompPressures`, `GetGasCompPhi`: the same code for another member,
`/repo/src/PhreeqcRM.cpp:3858-3905`, `:3970-4020`, `:4140-4190`. -/
def getGasComp (field : GasComp → ℚ) (s : MapState) (names : List Name) (w : Nat → GasMap) :
    Out (List ℚ) :=
  getGrid s names.length (List.replicate (s.nxyz * names.length) fillValue) (fun n j =>
    .ok (names.map (fun nm =>
      match find (w n) j with
      | none => -1
      | some e => getComp field e.val.comps nm)))

/-- `GetGasPhaseVolume`, `/repo/src/PhreeqcRM.cpp:4268-4303`. -/
def getGasPhaseVolume (s : MapState) (w : Nat → GasMap) : Out (List ℚ) :=
  getGrid s 1 (List.replicate (s.nxyz * 1) fillValue) (fun n j =>
    .ok [match find (w n) j with
      | none => -1
      | some e => e.val.volume])

end Verif.Gas
