import Verif.CInit.Model

/-!
# Initial conditions for Fortran callers, and one kind of reactant

`/repo/src/RM_interface_F.cpp:1606-1816`. The C functions for one kind, `/repo/src/RM_interface_C.cpp:2094-2134`, call those of the
Fortran interface. Simplifications as in `Verif.CInit.Model`.
-/

namespace Verif.CInit

open Verif.CTables Verif.Store Verif.InitCond Verif.CBoundary

/-- `RMF_InitialSolutions2Module` (`pos` 0, lines 1606-1620), `RMF_InitialEquilibriumPhases2Module` (1, 1622-1636),
`RMF_InitialExchanges2Module` (2, 1638-1652), `RMF_InitialSurfaces2Module` (3, 1654-1668), `RMF_InitialGasPhases2Module` (4, 1670-1684),
`RMF_InitialSolidSolutions2Module` (5, 1686-1700), `RMF_InitialKinetics2Module` (6, 1702-1716). The pointer is not tested. -/
def oneKind {α : Type} (ch : Chem α) (inst : Option (Inst α)) (pos : Nat) (v : Option (List Int))
    (w : Nat → Bin α) : Out (Result α) :=
  match inst with
  | none => .ok ⟨.badInstance, [], w⟩
  | some m =>
    match v with
    | none => .ub
    | some l => do
      let v ← copyIn m.s.nxyz l
      initialOne2Module ch m.pb m.st m.s pos v w

/-- `RMF_InitialPhreeqc2Module`, lines 1718-1748. -/
def initialF {α : Type} (ch : Chem α) (inst : Option (Inst α)) (i1 : List Int) (w : Nat → Bin α) : Out (Result α) :=
  match inst with
  | none => .ok ⟨.badInstance, [], w⟩
  | some m => do
    let k ← mulInt m.s.nxyz 7
    let n ← resizeInt k
    let v1 ← copyIn k i1
    initialPhreeqc2Module ch m.pb m.st m.s ⟨v1, List.replicate n (-1), List.replicate n 1⟩ w

/-- `RMF_InitialPhreeqc2ModuleMix`, lines 1750-1790, for arrays that are not null. -/
def initialMixF {α : Type} (ch : Chem α) (inst : Option (Inst α)) (i1 i2 : List Int) (f : List ℚ) (w : Nat → Bin α) :
    Out (Result α) :=
  match inst with
  | none => .ok ⟨.badInstance, [], w⟩
  | some m => do
    let k ← mulInt m.s.nxyz 7
    let v1 ← copyIn k i1
    let v2 ← copyIn k i2
    let vf ← copyIn k f
    initialPhreeqc2Module ch m.pb m.st m.s ⟨v1, v2, vf⟩ w

/-- `RMF_InitialPhreeqcCell2Module`, lines 1792-1816. -/
def cellF {α : Type} (ch : Chem α) (inst : Option (Inst α)) (n : Int) (cells : List Int) (dim : Int)
    (w : Nat → Bin α) : Out (IRM × (Nat → Bin α)) :=
  match inst with
  | none => .ok (.badInstance, w)
  | some m => do
    let v ← copyIn dim cells
    CellCopy.cellToModule ch m.keys m.pb m.st m.s n v w

end Verif.CInit
