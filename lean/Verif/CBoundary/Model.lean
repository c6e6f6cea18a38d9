import Verif.Boundary.Model
import Verif.CTables.Model

/-!
# Boundary concentrations for C callers

`RM_InitialPhreeqc2Concentrations`, `/repo/src/RM_interface_C.cpp:2037-2092`, on top of the function of the class
(`Verif.Boundary`).

Simplifications. Build without MPI. A pointer is null or gives the values from there to the end of the array it
points into; arrays do not overlap. Memory is not exhausted; a vector larger than the library allows is refused
(`CTables.resizeInt`; the limit for `double` is used for `int` as well). An exception or the end of the program in the function of the
class (error handler modes 1 and 2) passes through: the outcome `Ret` is that of the class.
-/

namespace Verif.CBoundary

open Verif.Setters Verif.Boundary Verif.CTables

/-- `v.resize(n); memcpy(&v.front(), a, n * sizeof ...)`, lines 2066-2067: undefined for an empty vector and for an array that is
too short. -/
def copyIn {α : Type} (n : Int) (a : List α) : Out (List α) := do
  let k ← resizeInt n
  if k = 0 then .ub
  else if a.length < k then .ub
  else .ok (a.take k)

/-- The same for a pointer that may be null, lines 2068-2077. -/
def copyOpt {α : Type} (n : Int) : Option (List α) → Out (List α)
  | none => .ok []
  | some a => copyIn n a

/-- `memcpy(p, &v.front(), v.size() * sizeof(double))`, line 2085. -/
def copyOut (v c : List ℚ) : Out (List ℚ) :=
  if v = [] then .ub
  else if c.length < v.length then .ub
  else .ok (v ++ c.drop v.length)

/-- `RM_InitialPhreeqc2Concentrations`, lines 2037-2092: the array `boundary_c` afterwards and the outcome. `inst` is the
instance with the number given, if there is one. -/
def concentrations (inst : Option Init) (c : Option (List ℚ)) (n : Int) (b1 b2 : Option (List Int))
    (f : Option (List ℚ)) : Out (Option (List ℚ) × Ret) :=
  match inst with
  | none => .ok (c, .value .badInstance)
  | some st =>
    match c, b1 with
    | some c, some b1 => do
      let v1 ← copyIn n b1
      let v2 ← copyOpt n b2
      let vf ← copyOpt n f
      let r ← boundary st v1 v2 vf []
      if r.2 = .value .ok then do
        let c' ← copyOut r.1 c
        .ok (some c', r.2)
      else .ok (some c, r.2)
    | _, _ => .ok (c, .value .invalidArg)

end Verif.CBoundary
