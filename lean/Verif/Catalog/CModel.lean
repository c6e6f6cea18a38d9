import Verif.Catalog.Model
import Verif.CArrays.Model

/-!
# Charges and diffusion coefficients of the C interface

`RM_GetSpeciesZ` and `RM_GetSpeciesD25`, `/repo/src/RM_interface_C.cpp:1835-1851` and `1933-1949`.

Simplifications: a pointer is `NULL` or the beginning of an array; the module is that of `Verif.Catalog`.
-/

namespace Verif.Catalog

/-- The two functions. -/
inductive Column
  | z
  | d25

/-- `GetSpeciesZ` and `GetSpeciesD25` of the class, `/repo/src/PhreeqcRM.h:2721` and `2479`. -/
def Lists.column (l : Lists) : Column → List ℚ
  | .z => l.zs
  | .d25 => l.ds

/-- `/repo/src/RM_interface_C.cpp:1839-1850` and `1937-1948`: the array afterwards and the code. -/
def getColumn (inst : Option State) (w : Column) (a : Option (List ℚ)) : Out (Option (List ℚ) × IRM) :=
  match inst with
  | none => .ok (a, .badInstance)
  | some st =>
    match a with
    | none => .ok (none, .invalidArg)
    | some l => do
      let l' ← CArrays.copyOut l (st.lists.column w)
      .ok (some l', .ok)

end Verif.Catalog
