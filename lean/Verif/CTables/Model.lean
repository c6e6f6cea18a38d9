import Verif.CArrays.Model

/-!
# Tables of C callers

The functions of the C interface that take or fill an array with several values per grid cell,
`/repo/src/RM_interface_C.cpp`, and `RM_GetBackwardMapping`. What the functions of the class yield is
a parameter (most of them are modelled in `Verif.Conc`, `Verif.Gas`, `Verif.Species`, `Verif.SelOut`); what is
modelled here is the sizes, the copying, and the result codes.

Simplifications. Build without MPI. Pointers point to the beginning of an array. Error handler
mode 0: errors are returned. Memory is never exhausted, but a vector of more than `maxSize` entries
is refused by the library.
-/

namespace Verif.CTables

open Verif.CArrays

/-- The tables. -/
inductive Table
  | concentrations | gasMoles | gasPressures | gasPhi | speciesConc | speciesGammas
  | speciesMolalities | selected
  deriving DecidableEq, Repr

/-- A module, as far as tables are concerned. `cols` is the number of columns of the current selected
output if there is one; `val t j i` what the class shows for grid cell `j` in column `i`; `fails t` tells
that the getter of the class returns an error. -/
structure Mod where
  nxyz : Nat
  comps : Nat                      -- components.size()
  gases : Nat                      -- GasComponentsList.size()
  species : Nat                    -- species_names.size()
  saveOn : Bool                    -- species_save_on
  cols : Option Nat
  back : List (List Nat)           -- backward_mapping
  val : Table → Nat → Nat → ℚ
  fails : Table → Option IRM

/-- Largest value of `int`. -/
def intMax : Int := 2147483647

/-- A product of two `int`; overflow is undefined. -/
def mulInt (a b : Int) : Out Int :=
  if -intMax - 1 ≤ a * b ∧ a * b ≤ intMax then .ok (a * b) else .ub

/-- `max_size()` of a vector of double: `PTRDIFF_MAX / 8`. -/
def maxSize : Nat := 1152921504606846975

/-- `v.resize(k)` for an empty vector and an `int`, which is converted to `size_t`; a negative number becomes too large,
and `std::length_error` is thrown. The length is returned. -/
def resizeInt (k : Int) : Out Nat :=
  let n := (if k < 0 then 2 ^ 64 + k else k).toNat
  if maxSize < n then .throw else .ok n

/-- A column after the other. -/
def layout (nxyz cols : Nat) (val : Nat → Nat → ℚ) : List ℚ :=
  (List.range cols).flatMap fun i => (List.range nxyz).map fun j => val j i

/-- `GetSelectedOutputColumnCount`, `/repo/src/PhreeqcRM.cpp:4640-4662`: `IRM_INVALIDARG` when there is none. -/
def Mod.columnCount (m : Mod) : Int :=
  match m.cols with
  | some n => n
  | none => IRM.invalidArg.toInt

/-- Columns of what the class returns: `PhreeqcRM.cpp:3578` (concentrations), 3867, 4010, 4151 (gas), 4900-4903,
4931-4934 (species: nothing unless saved; the same for the logarithms, 5041-5044, 5072-5075), 4600 (selected output). -/
def Mod.width (m : Mod) : Table → Nat
  | .concentrations => m.comps
  | .gasMoles | .gasPressures | .gasPhi => m.gases
  | .speciesConc | .speciesGammas | .speciesMolalities => if m.saveOn then m.species else 0
  | .selected => m.cols.getD 0   -- not used when there is none: the getter fails

/-- The getter of the class, with a vector of the right size or an empty one: `GetSelectedOutput` fails when there is no
selected output (`PhreeqcRM.cpp:4591-4594`). -/
def Mod.get (m : Mod) (t : Table) : List ℚ × IRM :=
  match m.fails t with
  | some e => ([], e)
  | none =>
    if t = .selected ∧ m.cols = none then ([], .fail)
    else (layout m.nxyz (m.width t) (m.val t), .ok)

/-- The first vector of the functions of the C interface: concentrations RM_interface_C.cpp:1308-1309, gas 1453-1454,
1476-1477, 1498-1499, selected output 1693-1695; the species have an empty vector, 1809-1810, 1863-1864, 1887-1888. -/
def Mod.prepare (m : Mod) : Table → Out Unit
  | .concentrations => do let k ← mulInt m.nxyz m.comps; let _ ← resizeInt k; pure ()
  | .gasMoles | .gasPressures | .gasPhi => do
    let k ← mulInt m.nxyz m.gases; let _ ← resizeInt k; pure ()
  | .speciesConc | .speciesGammas | .speciesMolalities => pure ()
  | .selected => do let k ← mulInt m.columnCount m.nxyz; let _ ← resizeInt k; pure ()

/-- `RM_GetConcentrations` (RM_interface_C.cpp:1299-1320), `RM_GetGasCompMoles` (1444-1465), `RM_GetGasCompPressures`
(1467-1488), `RM_GetGasCompPhi` (1489-1510), `RM_GetSpeciesConcentrations` (1800-1821), `RM_GetSpeciesLog10Gammas`
(1853-1874), `RM_GetSpeciesLog10Molalities` (1877-1898), `RM_GetSelectedOutput` (1684-1706). `m` is the instance found for
the number given, `a` the array, if the pointer is not null. -/
def getTable (m : Option Mod) (t : Table) (a : Option (List ℚ)) : Out (Option (List ℚ) × IRM) :=
  match m with
  | none => .ok (a, .badInstance)
  | some m =>
    match a with
    | none => .ok (a, .invalidArg)
    | some l => do
      m.prepare t
      let r := m.get t
      if r.2 = .ok then do
        let l' ← copyOut l r.1
        pure (some l', .ok)
      else pure (some l, r.2)

/-- The tables that can be set. -/
inductive SetTable
  | concentrations | gasMoles | species
  deriving DecidableEq, Repr

def Mod.setWidth (m : Mod) : SetTable → Nat
  | .concentrations => m.comps
  | .gasMoles => m.gases
  | .species => m.species

/-- `RM_SetConcentrations` (RM_interface_C.cpp:2424-2441), `RM_SetGasCompMoles` (2543-2560) and
`RM_SpeciesConcentrations2Module` (2958-2977): the vector that the class is called with. -/
def setTable (m : Option Mod) (t : SetTable) (a : Option (List ℚ)) : Out (Option (List ℚ) × IRM) :=
  match m with
  | none => .ok (none, .badInstance)
  | some m =>
    match a with
    | none => .ok (none, .invalidArg)
    | some l => do
      let k ← mulInt m.nxyz (m.setWidth t)
      let n ← resizeInt k
      let v ← copyIn l n
      pure (some v, .ok)

/-- `RM_GetBackwardMapping`, RM_interface_C.cpp:878-900. `list` and `size` are what the pointers point to; the number
of reaction cells is the length of the mapping. -/
def getBack (m : Option Mod) (n : Int) (list : Option (List Int)) (size : Option Int) :
    Out (Option (List Int) × Option Int × IRM) :=
  match m with
  | none => .ok (list, size, .badInstance)
  | some m =>
    match list with
    | none => .ok (list, size, .invalidArg)
    | some l =>
      if 0 ≤ n ∧ n < m.back.length then do
        let b ← Grid.idx m.back n
        match size with
        | none => .ub
        | some s =>
          if (b.length : Int) ≤ s then
            if l.length < b.length then .ub
            else pure (some (b.map (fun k : Nat => (k : Int)) ++ l.drop b.length), some b.length, .ok)
          else pure (some l, some s, .invalidArg)
      else .ok (some l, size, .invalidArg)

end Verif.CTables
