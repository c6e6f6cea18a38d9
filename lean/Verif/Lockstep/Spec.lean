import Verif.Lockstep.Model

/-!
# What a user expects of the processes
-/

namespace Verif.Lockstep.Spec

open Verif.Lockstep

variable {χ α : Type}

/-- The settings after a call, as the user sees them: one set of settings, with no processes. -/
def apply : Call → Settings → Settings
  | .setNum k t, g => { g with nums := fun j => if j = k then t else g.nums j }
  | .setFlag f t, g => { g with flags := fun j => if j = f then t else g.flags j }
  | .setUnits k u, g =>
    if (if k = .solution then 1 ≤ u ∧ u ≤ 3 else 0 ≤ u ∧ u ≤ 2) then
      { g with units := fun j => if j = k then u else g.units j }
    else g
  | .setMode i, g => { g with mode := if i = 0 ∨ i = 1 ∨ i = 2 then i else 0 }
  | .setFilePrefix t, g => { g with filePrefix := t }
  | .setPrintOn w i u, g => { g with printOn := (w, i, u) }
  | .setPartitionUZ t, g => { g with partUZ := t }
  | _, g => g

/-- The settings after calls. -/
def settings : List Call → Settings → Settings
  | [], g => g
  | c :: cs, g => settings cs (apply c g)

/-- The last vector accepted for a property of the cells of a grid of `nxyz` cells. -/
def array (nxyz : Nat) (a : Arr) : List Call → List ℚ → List ℚ
  | [], v => v
  | .setArr b w :: cs, v => array nxyz a cs (if b = a ∧ nxyz ≤ w.length then w else v)
  | _ :: cs, v => array nxyz a cs v

/-- The cells are divided among `n` processes. -/
def Divides (n count : Nat) (cells : List Nat) : Prop := cells.length = n ∧ cells.sum = count

/-- `w` are the values for the cells of process `p` in the vector `v` of the user. -/
def PieceOf (back : List (List Nat)) (cells : List Nat) (p : Nat) (v w : List α) : Prop :=
  w.length = cells.getD p 0 ∧
  ∀ l < w.length, ∃ i, back[(cells.take p).sum + l]?.bind List.head? = some i ∧ i < v.length ∧
    w[l]? = v[i]?

/-- Properties that are distributed again when cells change process. -/
def Kept (a : Arr) : Prop := a ≠ .pressure ∧ a ≠ .temperature

/-- All processes have the values of their cells. -/
def Pieces (n : Nat) (s : Nat → St χ) : Prop :=
  ∀ p < n, (∀ a, Kept a → PieceOf (s 0).sh.back (s 0).sh.cells p ((s 0).rootArr a) ((s p).workArr a)) ∧
    PieceOf (s 0).sh.back (s 0).sh.cells p (s 0).maskRoot (s p).maskWork

/-- The processes are in a state from which calls can be made: they agree, their cells divide the
reaction cells, and the arrays of the root are long enough. -/
structure Ready (n : Nat) (s : Nat → St χ) : Prop where
  agree : ∀ p < n, (s p).sh = (s 0).sh
  divides : Divides n (s 0).sh.back.length (s 0).sh.cells
  back : ∀ b ∈ (s 0).sh.back, ∃ i, b.head? = some i ∧ i < (s 0).sh.nxyz
  arrays : ∀ a, Kept a → (s 0).sh.nxyz ≤ ((s 0).rootArr a).length
  mask : (s 0).sh.nxyz ≤ (s 0).maskRoot.length
  keys : ∀ p < n, (s p).saved.map Prod.fst = (s 0).sh.savedCells.map Prod.fst
  savedDivides : ∀ e ∈ (s 0).sh.savedCells, Divides n (s 0).sh.back.length e.2
  mode : (s 0).sh.set.mode = 0 ∨ (s 0).sh.set.mode = 1
  oldSat : (s 0).sh.set.partUZ = true → (s 0).sh.nxyz ≤ (s 0).oldSatRoot.length

/-- Calls whose vectors have the lengths that the code takes for granted, and that do not ask for
`exit` on errors. -/
def Fine (nxyz ncomp : Nat) : Call → Prop
  | .setMask m => nxyz ≤ m.length
  | .setConcentrations t => ncomp * nxyz ≤ t.length
  | .setMode i => i ≠ 2
  | _ => True

/-- The transfer of cells between processes works, new ranges divide the cells, and the communicator
is `MPI_COMM_WORLD`. -/
structure Works (n : Nat) (E : Engine χ) : Prop where
  world : ∀ p, E.world p = p
  unpack : ∀ c x, (E.unpack c x).isSome = true
  delete : ∀ c l, (E.delete c l).2 = 0
  cells : ∀ sh t, Divides n sh.back.length (E.balanceCells n sh t)
  tasks : ∀ sh t new, E.balanceTasks n sh t = some new → Divides n sh.back.length new

end Verif.Lockstep.Spec
