import Verif.Lockstep.Comm
import Verif.Base

/-!
# Programs of the processes

A function of PhreeqcRM, as run by one process, is a program: the calls of the MPI library in their
order, each depending on what the process received before, and the result.
-/

namespace Verif.Lockstep

/-- A program of one process with a result. -/
inductive Prog (α : Type) where
  | ret (a : α)
  | coll (c : Coll) (k : Reply → Prog α)
  | send (dest : Nat) (v : Val) (k : Prog α)
  | recv (src : Nat) (ty : Ty) (count : Nat) (k : Val → Prog α)

/-- One program after the other. -/
def Prog.bind {α β : Type} : Prog α → (α → Prog β) → Prog β
  | .ret a, f => f a
  | .coll c k, f => .coll c (fun r => (k r).bind f)
  | .send q v k, f => .send q v (k.bind f)
  | .recv q t c k, f => .recv q t c (fun v => (k v).bind f)

/-- Outcome of a C++ function in one process: a value, an exception, `exit`, or undefined
behaviour. -/
inductive Res (α : Type) where
  | ok (a : α)
  | threw
  | exited
  | ub
  deriving DecidableEq, Repr

/-- A C++ function as run by one process with data `σ`. -/
def M (σ α : Type) : Type := σ → Prog (Res α × σ)

namespace M

variable {σ α β : Type}

/-- A value. -/
def pure (a : α) : M σ α := fun s => .ret (.ok a, s)

/-- Sequence: nothing follows an exception. -/
def bind (m : M σ α) (f : α → M σ β) : M σ β := fun s =>
  (m s).bind (fun r =>
    match r.1 with
    | .ok a => f a r.2
    | .threw => .ret (.threw, r.2)
    | .exited => .ret (.exited, r.2)
    | .ub => .ret (.ub, r.2))

/-- `throw`. -/
def throw : M σ α := fun s => .ret (.threw, s)

/-- `exit`. -/
def exit : M σ α := fun s => .ret (.exited, s)

/-- Undefined behaviour. -/
def ub : M σ α := fun s => .ret (.ub, s)

/-- `try { m } catch (...) { h }`. -/
def tryCatch (m : M σ α) (h : M σ α) : M σ α := fun s =>
  (m s).bind (fun r =>
    match r.1 with
    | .threw => h r.2
    | x => .ret (x, r.2))

/-- The data of the process. -/
def get : M σ σ := fun s => .ret (.ok s, s)

/-- Change of the data of the process. -/
def modify (f : σ → σ) : M σ Unit := fun s => .ret (.ok (), f s)

instance : Monad (M σ) where
  pure := pure
  bind := bind

/-- `MPI_Bcast` of integers. -/
def bcastInts (count : Nat) (l : List Int) : M σ (List Int) := fun s =>
  .coll (.bcast .int count (.ints l)) (fun r =>
    match r with
    | .one (.ints x) => .ret (.ok x, s)
    | _ => .ret (.ub, s))

/-- `MPI_Bcast` of one integer. -/
def bcastInt (x : Int) : M σ Int := fun s =>
  .coll (.bcast .int 1 (.ints [x])) (fun r =>
    match r with
    | .one (.ints [y]) => .ret (.ok y, s)
    | _ => .ret (.ub, s))

/-- `MPI_Bcast` of one `double`. -/
def bcastDbl (x : ℚ) : M σ ℚ := fun s =>
  .coll (.bcast .dbl 1 (.dbls [x])) (fun r =>
    match r with
    | .one (.dbls [y]) => .ret (.ok y, s)
    | _ => .ret (.ub, s))

/-- `MPI_Bcast` of characters. -/
def bcastChars (count : Nat) (l : List Char) : M σ (List Char) := fun s =>
  .coll (.bcast .chr count (.chars l)) (fun r =>
    match r with
    | .one (.chars x) => .ret (.ok x, s)
    | _ => .ret (.ub, s))

/-- The numbers in the buffer of the root after `MPI_Gather` of one integer; `recv_buffer` of the
other processes is not changed, and is not used here. -/
def gatherInt (x : Int) : M σ (List Int) := fun s =>
  .coll (.gather .int 1 (.ints [x])) (fun r =>
    match r with
    | .all l => .ret (.ok (l.flatMap (fun v => match v with | .ints y => y | _ => [])), s)
    | _ => .ret (.ok [], s))

/-- `MPI_Gather` of one `double`. -/
def gatherDbl (x : ℚ) : M σ (List ℚ) := fun s =>
  .coll (.gather .dbl 1 (.dbls [x])) (fun r =>
    match r with
    | .all l => .ret (.ok (l.flatMap (fun v => match v with | .dbls y => y | _ => [])), s)
    | _ => .ret (.ok [], s))

/-- `MPI_Gatherv` of doubles: the buffer of the root, the parts being placed one after the other. -/
def gathervDbls (counts : List Nat) (x : List ℚ) : M σ (List ℚ) := fun s =>
  .coll (.gatherv .dbl counts (.dbls x)) (fun r =>
    match r with
    | .all l => .ret (.ok (l.flatMap (fun v => match v with | .dbls y => y | _ => [])), s)
    | _ => .ret (.ok [], s))

/-- `MPI_Scatterv` of doubles. -/
def scattervDbls (pieces : List (List ℚ)) (want : Nat) : M σ (List ℚ) := fun s =>
  .coll (.scatterv .dbl (pieces.map .dbls) want) (fun r =>
    match r with
    | .one (.dbls x) => .ret (.ok x, s)
    | _ => .ret (.ub, s))

/-- `MPI_Scatterv` of integers. -/
def scattervInts (pieces : List (List Int)) (want : Nat) : M σ (List Int) := fun s =>
  .coll (.scatterv .int (pieces.map .ints) want) (fun r =>
    match r with
    | .one (.ints x) => .ret (.ok x, s)
    | _ => .ret (.ub, s))

/-- `MPI_Allreduce` with `MPI_MIN`. -/
def allmin (x : Int) : M σ Int := fun s =>
  .coll (.allmin x) (fun r =>
    match r with
    | .one (.ints [y]) => .ret (.ok y, s)
    | _ => .ret (.ub, s))

/-- `MPI_Barrier`. -/
def barrier : M σ Unit := fun s => .coll .barrier (fun _ => .ret (.ok (), s))

/-- `MPI_Send`. -/
def send (dest : Nat) (v : Val) : M σ Unit := fun s => .send dest v (.ret (.ok (), s))

/-- `MPI_Recv`. -/
def recv (src : Nat) (ty : Ty) (count : Nat) : M σ Val := fun s =>
  .recv src ty count (fun v => .ret (.ok v, s))

/-- A `for` loop. -/
def loop : List Nat → (Nat → M σ Unit) → M σ Unit
  | [], _ => pure ()
  | i :: l, f => bind (f i) (fun _ => loop l f)

/-- `if (mpi_myself == 0)`. -/
def onRoot (p : Nat) (m : M σ Unit) : M σ Unit := if p = 0 then m else pure ()

end M

end Verif.Lockstep
