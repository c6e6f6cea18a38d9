import Verif.CBoundary.Model
import Verif.CellCopy.Model
import Verif.Species.BoundaryModel

/-!
# Initial conditions for C callers

`RM_InitialPhreeqc2Module`, `RM_InitialPhreeqcCell2Module` and `RM_InitialPhreeqc2SpeciesConcentrations`,
`/repo/src/RM_interface_C.cpp:2136-2261`, on top of the functions of the class (`Verif.InitCond`, `Verif.CellCopy`,
`Verif.Species`).

Simplifications as in `Verif.CBoundary.Model` and in the models of the class. An error of the class is seen as its
code (error handler mode 0), except for the species, where it is the outcome `Ret`.
-/

namespace Verif.CInit

open Verif.Setters Verif.CTables Verif.Store Verif.Mapping Verif.InitCond Verif.CBoundary

/-- What the functions use of an instance: the contents of the InitialPhreeqc instance with the numbers of its solutions, the arrays of
the grid, the mapping. -/
structure Inst (α : Type) where
  pb : Bin α
  keys : List Int
  st : Settings
  s : MapState

/-- `v.resize(k, d)` and, when the pointer is not null, the copy over it: lines 2160 and 2163-2166, 2161 and 2167-2170. -/
def copyOver {β : Type} (k : Int) (d : β) : Option (List β) → Out (List β)
  | none => do let n ← resizeInt k; .ok (List.replicate n d)
  | some a => copyIn k a

/-- `RM_InitialPhreeqc2Module`, lines 2136-2179. `nxyz * 7` is a product of `int`. -/
def initial {α : Type} (ch : Chem α) (inst : Option (Inst α)) (i1 i2 : Option (List Int)) (f : Option (List ℚ))
    (w : Nat → Bin α) : Out (Result α) :=
  match inst with
  | none => .ok ⟨.badInstance, [], w⟩
  | some m =>
    match i1 with
    | none => .ok ⟨.invalidArg, [], w⟩
    | some l => do
      let k ← mulInt m.s.nxyz 7
      let v1 ← copyIn k l
      let v2 ← copyOver k (-1) i2
      let vf ← copyOver k 1 f
      initialPhreeqc2Module ch m.pb m.st m.s ⟨v1, v2, vf⟩ w

/-- `RM_InitialPhreeqcCell2Module`, lines 2181-2203. -/
def cell {α : Type} (ch : Chem α) (inst : Option (Inst α)) (n : Int) (cells : Option (List Int)) (dim : Int)
    (w : Nat → Bin α) : Out (IRM × (Nat → Bin α)) :=
  match inst with
  | none => .ok (.badInstance, w)
  | some m =>
    match cells with
    | none => .ok (.invalidArg, w)
    | some l => do
      let v ← copyIn dim l
      CellCopy.cellToModule ch m.keys m.pb m.st m.s n v w

/-- `RM_InitialPhreeqc2SpeciesConcentrations`, lines 2205-2261. The instance has the state `st`, `nsp` species and the table
`tab` of their numbers. -/
def species (inst : Option (Boundary.Init × Nat × List (Int × Nat))) (c : Option (List ℚ)) (n : Int)
    (b1 b2 : Option (List Int)) (f : Option (List ℚ)) : Out (Option (List ℚ) × Ret) :=
  match inst with
  | none => .ok (c, .value .badInstance)
  | some (st, nsp, tab) =>
    match c, b1 with
    | some c, some b1 => do
      let v1 ← copyIn n b1
      let v2 ← copyOpt n b2
      let vf ← copyOpt n f
      let r ← Species.boundarySp st nsp tab v1 v2 vf []
      if r.2 = .value .ok then do
        let c' ← copyOut r.1 c
        .ok (some c', r.2)
      else .ok (some c, r.2)
    | _, _ => .ok (c, .value .invalidArg)

end Verif.CInit
