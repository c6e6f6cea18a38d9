import Verif.BMI.Model

/-!
# Setting variables from Python

`set_value` of the Python class for the BMI, `/repo/swig/PhreeqcRM.i:881-906`, on top of the functions of the class (`Verif.BMI`).

Simplifications: as in `Verif.BMI.Model`; variables with values of type `double` and the file prefix. `get_var_nbytes`, `get_var_itemsize` and
`get_var_type` set the variable up unless it is, each in the same way: done once. The quotient of the two sizes, a Python `float`, is exact for these
variables. Lists of Python are lists of numbers or of strings.
-/

namespace Verif.Python

open Verif.BMI

variable {σ : Type}

/-- `set_value` for `float64`, `/repo/swig/PhreeqcRM.i` lines 884-895. `ready` is `_state == INITIALIZED`. Division by zero and `value[0]` of an empty list are
exceptions. -/
def setDouble (ready : Bool) (m : BMI.Mod σ) (v : Var) (value : List ℚ) (s : S σ) : R σ Unit :=
  if ready = false then .threw s
  else (ensure m v s).bind fun s _ =>
    if (s.va v).itemsize = 0 then .threw s
    else if (s.va v).nbytes = (s.va v).itemsize then
      match value with
      | [] => .threw s
      | x :: _ => setValueNum m v x s
    else if (s.va v).itemsize < (s.va v).nbytes then setValueVec m v value s
    else .ok s ()

/-- `set_value` for the file prefix, `/repo/swig/PhreeqcRM.i` lines 884-890 and 902-904. -/
def setPrefix (ready : Bool) (m : BMI.Mod σ) (value : List (List Char)) (s : S σ) : R σ Unit :=
  if ready = false then .threw s
  else (ensure m .FilePrefix s).bind fun s _ =>
    if (s.va .FilePrefix).itemsize = 0 then .threw s
    else match value with
      | [] => .threw s
      | x :: _ => setValueStr m .FilePrefix x s

end Verif.Python
