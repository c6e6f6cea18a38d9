import Mathlib.Data.Rat.Defs
import Mathlib.Logic.Function.Basic

/-!
# Processes that communicate through MPI

The calls of the MPI library that the MPI build of PhreeqcRM uses: `MPI_Bcast`, `MPI_Gather`,
`MPI_Gatherv`, `MPI_Scatterv`, `MPI_Allreduce` and `MPI_Barrier`, always with root 0, and `MPI_Send`
and `MPI_Recv`, always with tag 0 and a named source. The library is not part of `/repo`; the rules
below are those of the MPI standard.

* A collective call is carried out when all processes are in the same collective call with the same
  type and matching counts. Otherwise there is no step: processes in different collective calls wait
  for ever (or the library aborts them).
* `MPI_Send` may return as soon as the message is buffered (`Label.push`), or only when the receiver
  takes it (`Label.rdv`). The standard leaves the choice to the library, so both are possible at
  every send.
* Messages between two processes are received in the order sent.
-/

namespace Verif.Lockstep

/-- Types of the data of a message. -/
inductive Ty where
  | int | dbl | chr | packed
  deriving DecidableEq, Repr

/-- Data of a message. `packed` is a buffer filled by three calls of `MPI_Pack`. -/
inductive Val where
  | ints (l : List Int)
  | dbls (l : List ℚ)
  | chars (l : List Char)
  | packed (t : List Char) (i : List Int) (d : List ℚ)
  deriving DecidableEq, Repr

/-- The type of the data. -/
def Val.ty : Val → Ty
  | .ints _ => .int
  | .dbls _ => .dbl
  | .chars _ => .chr
  | .packed .. => .packed

/-- The number of elements; for a packed buffer the number of bytes, with 4 for an `int` and 8 for a
`double`. -/
def Val.len : Val → Nat
  | .ints l => l.length
  | .dbls l => l.length
  | .chars l => l.length
  | .packed t i d => t.length + 4 * i.length + 8 * d.length

/-- Part of a process in a collective call. -/
inductive Coll where
  /-- `MPI_Bcast(buffer, count, type)` -/
  | bcast (ty : Ty) (count : Nat) (v : Val)
  /-- `MPI_Gather(data, count, type, …)` -/
  | gather (ty : Ty) (count : Nat) (v : Val)
  /-- `MPI_Gatherv(data, …, recv_counts, …)`; the counts matter on the root. -/
  | gatherv (ty : Ty) (counts : List Nat) (v : Val)
  /-- `MPI_Scatterv(pieces, …, recv_count)`; the pieces matter on the root. -/
  | scatterv (ty : Ty) (pieces : List Val) (want : Nat)
  /-- `MPI_Allreduce(x, …, MPI_MIN)` -/
  | allmin (x : Int)
  /-- `MPI_Barrier` -/
  | barrier
  deriving DecidableEq, Repr

/-- What a process gets from a collective call. -/
inductive Reply where
  | nothing
  | one (v : Val)
  | all (l : List Val)
  deriving DecidableEq, Repr

/-- The data given to a gathering call. -/
def Coll.data : Coll → Val
  | .bcast _ _ v | .gather _ _ v | .gatherv _ _ v => v
  | .scatterv .. | .allmin _ | .barrier => .ints []

/-- The process takes part in the broadcast of `count` elements of the type. -/
def Coll.InBcast (ty : Ty) (count : Nat) : Coll → Prop
  | .bcast t c _ => t = ty ∧ c = count
  | _ => False

/-- The process takes part in the gathering of `count` elements of the type, which it has. -/
def Coll.InGather (ty : Ty) (count : Nat) : Coll → Prop
  | .gather t c v => t = ty ∧ c = count ∧ v.ty = ty ∧ v.len = count
  | _ => False

/-- The process takes part in the gathering, the root expecting `want` elements from it. -/
def Coll.InGatherv (ty : Ty) (want : Option Nat) : Coll → Prop
  | .gatherv t _ v => t = ty ∧ v.ty = ty ∧ want = some v.len
  | _ => False

/-- The process takes part in the scattering and its part fits. -/
def Coll.InScatterv (ty : Ty) (piece : Option Val) : Coll → Prop
  | .scatterv t _ want => t = ty ∧ (piece.map Val.ty) = some ty ∧ (piece.map Val.len) = some want
  | _ => False

/-- The process takes part in the reduction. -/
def Coll.InAllmin : Coll → Prop
  | .allmin _ => True
  | _ => False

/-- The number given to the reduction. -/
def Coll.number : Coll → Int
  | .allmin x => x
  | _ => 0

instance (ty : Ty) (c : Nat) (g : Coll) : Decidable (g.InBcast ty c) := by
  cases g <;> unfold Coll.InBcast <;> infer_instance
instance (ty : Ty) (c : Nat) (g : Coll) : Decidable (g.InGather ty c) := by
  cases g <;> unfold Coll.InGather <;> infer_instance
instance (ty : Ty) (c : Option Nat) (g : Coll) : Decidable (g.InGatherv ty c) := by
  cases g <;> unfold Coll.InGatherv <;> infer_instance
instance (ty : Ty) (c : Option Val) (g : Coll) : Decidable (g.InScatterv ty c) := by
  cases g <;> unfold Coll.InScatterv <;> infer_instance
instance (g : Coll) : Decidable g.InAllmin := by
  cases g <;> unfold Coll.InAllmin <;> infer_instance

/-- Least number of a list. -/
def least : Int → List Int → Int
  | a, [] => a
  | a, b :: l => least (min a b) l

/-- The collective call of processes `0, …, n - 1`: what each gets, if the calls match. -/
def meet (n : Nat) (g : Nat → Coll) : Option (Nat → Reply) :=
  match g 0 with
  | .bcast ty c v =>
    if v.ty = ty ∧ v.len = c ∧ ∀ p < n, (g p).InBcast ty c then some (fun _ => .one v) else none
  | .gather ty c _ =>
    if ∀ p < n, (g p).InGather ty c then
      some (fun p => if p = 0 then .all ((List.range n).map (fun q => (g q).data)) else .nothing)
    else none
  | .gatherv ty cs _ =>
    if ∀ p < n, (g p).InGatherv ty cs[p]? then
      some (fun p => if p = 0 then .all ((List.range n).map (fun q => (g q).data)) else .nothing)
    else none
  | .scatterv ty ps _ =>
    if ∀ p < n, (g p).InScatterv ty ps[p]? then
      some (fun p => match ps[p]? with | some v => .one v | none => .nothing)
    else none
  | .allmin x =>
    if ∀ p < n, (g p).InAllmin then
      some (fun _ => .one (.ints [least x ((List.range n).map (fun q => (g q).number))]))
    else none
  | .barrier => if ∀ p < n, g p = .barrier then some (fun _ => .nothing) else none

/-- What a process does next, and its state afterwards. -/
inductive Act (σ : Type) where
  | done
  | coll (c : Coll) (k : Reply → σ)
  | send (dest : Nat) (v : Val) (s : σ)
  | recv (src : Nat) (ty : Ty) (count : Nat) (k : Val → σ)

/-- States of the processes and messages sent but not received: `ch (p, q)` are those from `p` to
`q`. -/
structure Config (σ : Type) where
  ps : Nat → σ
  ch : Nat × Nat → List Val

/-- Steps of an execution. -/
inductive Label where
  /-- a collective call -/
  | coll
  /-- a message of the first process for the second is buffered -/
  | push (p q : Nat)
  /-- the second process receives a buffered message of the first -/
  | pop (p q : Nat)
  /-- the first process hands a message to the second -/
  | rdv (p q : Nat)
  deriving DecidableEq

/-- A message fits a receive: a longer one is an error. -/
def Val.Fits (v : Val) (ty : Ty) (count : Nat) : Prop := v.ty = ty ∧ v.len ≤ count

/-- One step of `n` processes, whose actions are given by `act`. -/
inductive Step {σ : Type} (act : Nat → σ → Act σ) (n : Nat) : Label → Config σ → Config σ → Prop
  | coll {C : Config σ} (cs : Nat → Coll) (ks : Nat → Reply → σ) (rs : Nat → Reply)
      (h : ∀ p < n, act p (C.ps p) = .coll (cs p) (ks p)) (hm : meet n cs = some rs) :
      Step act n .coll C ⟨fun p => if p < n then ks p (rs p) else C.ps p, C.ch⟩
  | push {C : Config σ} {p q : Nat} {v : Val} {s : σ} (hp : p < n) (hq : q < n)
      (h : act p (C.ps p) = .send q v s) :
      Step act n (.push p q) C
        ⟨Function.update C.ps p s, Function.update C.ch (p, q) (C.ch (p, q) ++ [v])⟩
  | pop {C : Config σ} {p q : Nat} {ty : Ty} {c : Nat} {k : Val → σ} {v : Val} {l : List Val}
      (hp : p < n) (hq : q < n) (h : act q (C.ps q) = .recv p ty c k) (hv : C.ch (p, q) = v :: l)
      (hf : v.Fits ty c) :
      Step act n (.pop p q) C ⟨Function.update C.ps q (k v), Function.update C.ch (p, q) l⟩
  | rdv {C : Config σ} {p q : Nat} {ty : Ty} {c : Nat} {k : Val → σ} {v : Val} {s : σ}
      (hp : p < n) (hq : q < n) (hs : act p (C.ps p) = .send q v s)
      (hr : act q (C.ps q) = .recv p ty c k) (he : C.ch (p, q) = []) (hf : v.Fits ty c) :
      Step act n (.rdv p q) C ⟨Function.update (Function.update C.ps p s) q (k v), C.ch⟩

/-- All processes have ended and no message is left. -/
def Final {σ : Type} (act : Nat → σ → Act σ) (n : Nat) (C : Config σ) : Prop :=
  (∀ p < n, act p (C.ps p) = .done) ∧ ∀ c, C.ch c = []

/-- Executions of a number of steps. -/
inductive Exec {σ : Type} (act : Nat → σ → Act σ) (n : Nat) : Nat → Config σ → Config σ → Prop
  | nil (C : Config σ) : Exec act n 0 C C
  | cons {a : Label} {m : Nat} {C D E : Config σ} (h : Step act n a C D) (t : Exec act n m D E) :
      Exec act n (m + 1) C E

/-- The step does not rely on buffering. -/
def Label.Unbuffered : Label → Prop
  | .push .. => False
  | _ => True

end Verif.Lockstep
