import Verif.InitCond.Model

/-!
# Copying a cell: `InitialPhreeqcCell2Module`

`/repo/src/PhreeqcRM.cpp:6713-6890`, without MPI. The reactant classes are those of
`Verif.InitCond` (`Chem`, `Settings`).

Simplifications: `catch (...)` (6885-6888) is left out, as no constructor of the model throws; the
message of `ReturnHandler` is left out.
-/

namespace Verif.CellCopy

open Verif.Store Verif.Mapping Verif.Grid Verif.Transfer Verif.Mixing Verif.InitCond

variable {α : Type}

/-- `Rxn_next_user_number`, `/repo/src/IPhreeqcPhast/IPhreeqc/phreeqcpp/Phreeqc.h:1941-1950`; `keys`
are the numbers of the solutions in increasing order. -/
def nextNumber (keys : List Int) : Int :=
  match keys.getLast? with
  | none => 0
  | some n => n + 1

/-- The cell to copy; negative if there is none (`/repo/src/PhreeqcRM.cpp:6733-6746`). `pb` is the
contents of the InitialPhreeqc instance. -/
def resolve (keys : List Int) (pb : Bin α) (cell : Int) : Int :=
  if cell < 0 then
    if nextNumber keys ≠ 0 then nextNumber keys - 1 else cell
  else if pb .solution cell = none then -1 else cell

/-- `cell_bin` as read (`/repo/src/PhreeqcRM.cpp:6796-6801`). -/
def cellBin (pb : Bin α) (cell : Int) : Bin α :=
  [Kind.mix, .reaction, .temperature, .pressure].foldl (fun b k => erase b k cell)
    (phreeqc2bin pb Store.empty cell)

/-- The solution (`/repo/src/PhreeqcRM.cpp:6813-6820`). A volume of zero gives a factor that is not a
number or infinite: `.ub`. -/
def putSolution (ch : Chem α) (por sat rv : ℚ) (cell nchem : Int) (b : Bin α) : Out (Bin α) :=
  match b .solution cell with
  | none => .ub
  | some e =>
    if ch.vol e = 0 then .ub
    else do
      let x ← ch.mix .solution (b .solution) (Mix.add [] cell (por * sat * rv / ch.vol e))
      .ok (Store.set b .solution nchem x)

/-- The other kinds, in the order of the code (`/repo/src/PhreeqcRM.cpp:6829, 6837, 6845, 6853, 6861,
6869`). -/
def solidKinds : List Kind :=
  [.ppAssemblage, .exchange, .surface, .gasPhase, .ssAssemblage, .kinetics]

/-- One of these kinds (`/repo/src/PhreeqcRM.cpp:6829-6835` and so on). -/
def putSolid (ch : Chem α) (units : Kind → Nat) (por rv : ℚ) (cell nchem : Int) (b : Bin α)
    (k : Kind) : Out (Bin α) :=
  if b k cell = none then .ok b
  else do
    let pf ← idx (porosityFactor por rv) (units k : Int)
    let x ← ch.mix k (b k) (Mix.add [] cell pf)
    .ok (Store.set b k nchem x)

/-- `cell_bin` for reaction cell `nchem` with the properties of grid cell `j`
(`/repo/src/PhreeqcRM.cpp:6796-6875`). -/
def build (ch : Chem α) (pb : Bin α) (st : Settings) (cell j nchem : Int) : Out (Bin α) := do
  let por ← idx st.por j
  let rv ← idx st.rv j
  let sat ← idx st.sat j
  let b ← putSolution ch por sat rv cell nchem (cellBin pb cell)
  solidKinds.foldlM (putSolid ch st.units por rv cell nchem) b

/-- The pass for worker `p.2` with the range `p.1` (`/repo/src/PhreeqcRM.cpp:6793-6881`). -/
def giveTo (ch : Chem α) (pb : Bin α) (st : Settings) (cell j nchem : Int) (w : Nat → Bin α)
    (p : (Int × Int) × Nat) : Out (Nat → Bin α) :=
  if p.1.1 ≤ nchem ∧ nchem ≤ p.1.2 then do
    let b ← build ch pb st cell j nchem
    .ok (setAt w p.2 (bin2phreeqc (w p.2) b nchem))
  else .ok w

/-- One pass of the loop over the list (`/repo/src/PhreeqcRM.cpp:6783-6882`); a pair is the number in
the list and its entry in `forward_mapping_root`. -/
def copyStep (ch : Chem α) (pb : Bin α) (st : Settings) (s : MapState) (cell : Int)
    (w : Nat → Bin α) (q : Int × Int) : Out (Nat → Bin α) :=
  if q.2 < 0 ∨ (s.count : Int) ≤ q.2 then .ok w
  else s.ranges.zipIdx.foldlM (giveTo ch pb st cell q.1 q.2) w

/-- `InitialPhreeqcCell2Module` (`/repo/src/PhreeqcRM.cpp:6713-6890`). -/
def cellToModule (ch : Chem α) (keys : List Int) (pb : Bin α) (st : Settings) (s : MapState)
    (cell : Int) (cells : List Int) (w : Nat → Bin α) : Out (IRM × (Nat → Bin α)) :=
  if resolve keys pb cell < 0 then .ok (.invalidArg, w)
  else do
    let chems ← cells.mapM (fun j : Int => idx s.forward j)
    let w' ← (cells.zip chems).foldlM (copyStep ch pb st s (resolve keys pb cell)) w
    .ok (.ok, w')

end Verif.CellCopy
