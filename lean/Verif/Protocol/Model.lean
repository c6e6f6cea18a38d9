import Verif.Grid.Model
import Verif.Conc.Model
import Mathlib.Data.Finset.Card

/-!
# Staged concentrations and the order of steps in `RunCells`

`GetIthConcentration`, `SetIthConcentration`, `GetIthSpeciesConcentration`,
`SetIthSpeciesConcentration`, `/repo/src/PhreeqcRM.cpp:3323-3436`, and the steps of `RunCells`,
`/repo/src/PhreeqcRM.cpp:9824-9943`, in the build without MPI and with error-handler mode 0.

The contents of the module are a parameter `M`; `Ops` lists what the protocol calls.
-/

namespace Verif.Protocol

open Verif.Grid

/-- The parts of the module the protocol calls. -/
structure Ops (M : Type) where
  /-- `SetConcentrations`; its return code is ignored by `RunCells` -/
  setConc    : M → List ℚ → Out M
  /-- `GetConcentrations` -/
  getConc    : M → Out (List ℚ × M)
  /-- `SpeciesConcentrations2Module` -/
  setSpecies : M → List ℚ → Out M
  /-- `GetSpeciesConcentrations` -/
  getSpecies : M → Out (List ℚ)
  /-- the loop over workers, the error count and the rebalancing,
  `/repo/src/PhreeqcRM.cpp:9868-9928`; the flag tells whether it ended without an exception -/
  run        : M → Out (M × Bool)
  /-- some reaction cell has no solution: what `CheckCells` tests,
  `/repo/src/PhreeqcRM.cpp:765-802` -/
  missing    : M → Bool

/-- Staged values, `IthCurrentConcentrations` and `IthConcentrationSet` (a `std::set<int>`). -/
structure Stage where
  vals : List ℚ
  set  : Finset Nat

/-- State of the protocol. -/
structure PState (M : Type) where
  nxyz      : Nat
  nc        : Nat        -- number of components
  nsp       : Nat        -- number of species
  speciesOn : Bool       -- species_save_on
  stage     : Stage
  spStage   : Stage
  cur       : List ℚ     -- CurrentConcentrations
  spCur     : List ℚ     -- CurrentSpeciesConcentrations
  needCheck : Bool       -- need_error_check
  mod       : M

/-- `for (j = 0; j < nxyz; j++) v[i * nxyz + j] = c[j]`, `/repo/src/PhreeqcRM.cpp:3367-3370`.
The size of `c` is only asserted. -/
def writeSlice (nxyz i : Nat) (c v : List ℚ) : Out (List ℚ) :=
  (List.range nxyz).foldlM (fun v (j : Nat) => do
    let x ← idx c (j : Int)
    writeAt v (i * nxyz + j) x) v

/-- `SetIthConcentration` on the staging area, `/repo/src/PhreeqcRM.cpp:3351-3380`; `n` is the
number of components (species). -/
def stageIth (nxyz n : Nat) (st : Stage) (i : Int) (c : List ℚ) : Out (IRM × Stage) :=
  if 0 ≤ i ∧ i < n then do
    let st0 := if st.vals.length ≠ nxyz * n then
      { vals := List.replicate (nxyz * n) 0, set := ∅ } else st
    let v ← writeSlice nxyz i.toNat c st0.vals
    .ok (.ok, { vals := v, set := insert i.toNat st0.set })
  else .ok (.invalidArg, st)

/-- `SetIthConcentration`. -/
def setIth {M : Type} (s : PState M) (i : Int) (c : List ℚ) : Out (IRM × PState M) := do
  let r ← stageIth s.nxyz s.nc s.stage i c
  .ok (r.1, { s with stage := r.2 })

/-- `SetIthSpeciesConcentration`, `/repo/src/PhreeqcRM.cpp:3408-3437`. -/
def setIthSpecies {M : Type} (s : PState M) (i : Int) (c : List ℚ) : Out (IRM × PState M) := do
  let r ← stageIth s.nxyz s.nsp s.spStage i c
  .ok (r.1, { s with spStage := r.2 })

/-- `c.resize(nxyz); c[j] = v[i * nxyz + j]`, `/repo/src/PhreeqcRM.cpp:3336-3340`. -/
def readSlice (nxyz i : Nat) (v : List ℚ) : Out (List ℚ) :=
  (List.range nxyz).mapM (fun (j : Nat) => idx v ((i * nxyz + j : Nat) : Int))

/-- `GetIthConcentration`, `/repo/src/PhreeqcRM.cpp:3323-3347`. -/
def getIth {M : Type} (o : Ops M) (s : PState M) (i : Int) : Out (IRM × List ℚ × PState M) :=
  if 0 ≤ i ∧ i < s.nc then do
    let s' ← (if s.cur.length ≠ s.nxyz * s.nc then do
        let r ← o.getConc s.mod
        Out.ok { s with cur := r.1, mod := r.2 }
      else .ok s)
    let c ← readSlice s'.nxyz i.toNat s'.cur
    .ok (.ok, c, s')
  else .ok (.invalidArg, [], s)

/-- The staged values are applied, `/repo/src/PhreeqcRM.cpp:9836-9853`. -/
def applyStage {M : Type} (n : Nat) (st : Stage) (put : M → List ℚ → Out M) (m : M) : Out M :=
  if st.set.card > 0 then
    if st.set.card ≠ n then .throw else put m st.vals
  else .ok m

/-- `/repo/src/PhreeqcRM.cpp:9868-9942`: the run proper and what follows it. -/
def finish {M : Type} (o : Ops M) (s : PState M) : Out (IRM × PState M) := do
  let r ← o.run s.mod
  let c ← o.getConc r.1
  let sp ← (if s.speciesOn then o.getSpecies c.2 else Out.ok s.spCur)
  .ok (if r.2 then .ok else .fail,
    { s with
      mod := c.2, cur := c.1, spCur := sp,
      stage := { s.stage with set := ∅ }, spStage := { s.spStage with set := ∅ } })

/-- `RunCells`, `/repo/src/PhreeqcRM.cpp:9824-9943`. -/
def runCells {M : Type} (o : Ops M) (s : PState M) : Out (IRM × PState M) := do
  let m1 ← applyStage s.nc s.stage o.setConc s.mod
  let m2 ← applyStage s.nsp s.spStage o.setSpecies m1
  let s2 := { s with mod := m2, needCheck := false }
  if s.needCheck = true ∧ o.missing m2 = true then .ok (.fail, s2)
  else finish o s2

/-- `SetConcentrations` called by the user. -/
def setConcentrations {M : Type} (o : Ops M) (s : PState M) (a : List ℚ) : Out (PState M) := do
  let m ← o.setConc s.mod a
  .ok { s with mod := m }

end Verif.Protocol
