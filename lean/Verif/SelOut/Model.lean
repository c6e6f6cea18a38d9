import Verif.OMap.Basic
import Verif.Grid.Model

/-!
# Selected output

`CSelectedOutput` (`/repo/src/IPhreeqcPhast/IPhreeqc/CSelectedOutput.cpp`), the part of
`PhreeqcRM::RunCellsThread` that fills it and `PhreeqcRM::GetSelectedOutput` that reads it.
-/

namespace Verif.SelOut

open Verif.OMap Verif.Grid

/-- Headings and string values. -/
abbrev Name := List Char

/-- `VAR`, `/repo/src/IPhreeqcPhast/IPhreeqc/Var.h:17-48`. Doubles are rationals; the other
unions members are exact. -/
inductive Var
  | empty
  | error (vresult : Int)
  | long (l : Int)
  | dbl (d : ℚ)
  | str (s : Name)
deriving DecidableEq

/-- `CSelectedOutput`: `m_nRowCount`, `m_vecVarHeadings`, `m_arrayVar` (one vector per column)
and `m_mapHeadingToCol` (`CSelectedOutput.hxx`). -/
structure Table where
  nRow  : Nat
  heads : List Name
  cols  : List (List Var)
  index : SMap Name Nat
deriving DecidableEq

/-- The constructor and `Clear`, `CSelectedOutput.cpp:28-44`. -/
def Table.new : Table := ⟨0, [], [], []⟩

/-- `GetColCount`, `CSelectedOutput.cpp:58-61`. -/
def Table.colCount (t : Table) : Nat := t.heads.length

/-- `GetRowCount`, `CSelectedOutput.cpp:46-56`. -/
def Table.rowCount (t : Table) : Nat := if t.colCount ≠ 0 then t.nRow + 1 else 0

/-- Result of `Get`: a value, or one of the two error codes. -/
inductive GetResult
  | val (v : Var)
  | invalidRow
  | invalidCol
deriving DecidableEq

/-- `Get(nRow, nCol, pVAR)`, `CSelectedOutput.cpp:70-95`. `VarClear` on a well-formed `VAR` and
`VarCopy` succeed. -/
def Table.get (t : Table) (r c : Int) : Out GetResult :=
  if r < 0 ∨ (t.rowCount : Int) ≤ r then .ok .invalidRow
  else if c < 0 ∨ (t.colCount : Int) ≤ c then .ok .invalidCol
  else if r ≠ 0 then do
    let col ← idx t.cols c
    let v ← idx col (r - 1)
    .ok (.val v)
  else do
    let h ← idx t.heads c
    .ok (.val (.str h))

/-- `v.resize(n)` when it makes `v` longer. -/
def growTo (n : Nat) (col : List Var) : List Var :=
  if col.length < n then col ++ List.replicate (n - col.length) .empty else col

/-- `EndRow`, `CSelectedOutput.cpp:98-122`. -/
def Table.endRow (t : Table) : Out Table :=
  if t.colCount = 0 then .ok t
  else if t.cols.length < t.colCount then .ub
  else .ok { t with
    nRow := t.nRow + 1
    cols := (t.cols.take t.colCount).map (growTo (t.nRow + 1)) ++ t.cols.drop t.colCount }

/-- `PushBack`, `CSelectedOutput.cpp:124-171`. `.at` throws when out of range. -/
def Table.pushBack (t : Table) (key : Name) (v : Var) : Out Table :=
  match find t.index key with
  | none => .ok
    { t with
      index := insert t.index key t.index.length
      heads := t.heads ++ [key]
      cols := t.cols ++ [List.replicate t.nRow .empty ++ [v]] }
  | some c =>
    match t.cols[c]? with
    | none => .ub
    | some col =>
      if col.length = t.nRow then .ok { t with cols := t.cols.set c (col ++ [v]) }
      else if t.nRow < col.length then .ok { t with cols := t.cols.set c (col.set t.nRow v) }
      else .throw

/-- The four vectors a row is packed into. -/
structure Packed where
  types   : List Int
  longs   : List Int
  doubles : List ℚ
  strings : List Char
deriving DecidableEq

/-- The body of the loop over columns, `CSelectedOutput.cpp:273-297`. -/
def packVar (p : Packed) : Var → Packed
  | .empty => { p with types := p.types ++ [0] }
  | .error e => { p with types := p.types ++ [1], longs := p.longs ++ [e] }
  | .long l => { p with types := p.types ++ [2], longs := p.longs ++ [l] }
  | .dbl d => { p with types := p.types ++ [3], doubles := p.doubles ++ [d] }
  | .str s =>
    { p with types := p.types ++ [4], longs := p.longs ++ [(s.length : Int)],
             strings := p.strings ++ s }

/-- The loop over headings, `CSelectedOutput.cpp:263-268`. -/
def packHeads (p : Packed) (hs : List Name) : Packed :=
  hs.foldl (fun p h =>
    { p with longs := p.longs ++ [(h.length : Int)], strings := p.strings ++ h }) p

/-- `Serialize(row, ...)`, `CSelectedOutput.cpp:241-299`. -/
def Table.serialize (t : Table) (row : Int) : Out Packed :=
  let p := packHeads ⟨[], [1, (t.heads.length : Int)], [], []⟩ t.heads
  (List.range t.heads.length).foldlM (fun p (j : Nat) => do
    let col ← idx t.cols (j : Int)
    let v ← idx col row
    .ok (packVar p v)) p

/-- `s.substr(start, l)`: throws when `start` is past the end, stops at the end. -/
def substr (s : List Char) (start l : Nat) : Out (List Char) :=
  if s.length < start then .throw else .ok ((s.drop start).take l)

/-- What `c_str()` passes on: everything before the first NUL. -/
def cstr (s : List Char) : Name := s.takeWhile (fun c => c ≠ '\x00')

/-- `(size_t) l` for a `long`. -/
def toSize (l : Int) : Nat := if l < 0 then (l + 18446744073709551616).toNat else l.toNat

/-- Positions in the packed vectors. -/
structure Pos where
  t : Nat
  l : Nat
  d : Nat
  s : Nat
deriving DecidableEq

/-- Reading the headings, `CSelectedOutput.cpp:313-320`. -/
def readHeads (p : Packed) : Nat → Pos → Out (List Name × Pos)
  | 0, q => .ok ([], q)
  | n + 1, q => do
    let l ← idx p.longs (q.l : Int)
    let h ← substr p.strings q.s (toSize l)
    let r ← readHeads p n { q with l := q.l + 1, s := q.s + toSize l }
    .ok (h :: r.1, r.2)

/-- One value, `CSelectedOutput.cpp:327-359`. A type that is not in the list is skipped. -/
def readVar (p : Packed) (h : Name) (q : Pos) (t : Table) : Out (Table × Pos) := do
  let ty ← idx p.types (q.t : Int)
  if ty = 0 then do
    let t' ← t.pushBack (cstr h) .empty
    .ok (t', { q with t := q.t + 1 })
  else if ty = 1 then do
    let e ← idx p.longs (q.l : Int)
    let t' ← t.pushBack (cstr h) (.error e)
    .ok (t', { q with t := q.t + 1, l := q.l + 1 })
  else if ty = 2 then do
    let e ← idx p.longs (q.l : Int)
    let t' ← t.pushBack (cstr h) (.long e)
    .ok (t', { q with t := q.t + 1, l := q.l + 1 })
  else if ty = 3 then do
    let e ← idx p.doubles (q.d : Int)
    let t' ← t.pushBack (cstr h) (.dbl e)
    .ok (t', { q with t := q.t + 1, d := q.d + 1 })
  else if ty = 4 then do
    let l ← idx p.longs (q.l : Int)
    let x ← substr p.strings q.s (toSize l)
    let t' ← t.pushBack (cstr h) (.str (cstr x))
    .ok (t', { q with t := q.t + 1, l := q.l + 1, s := q.s + toSize l })
  else .ok (t, { q with t := q.t + 1 })

/-- `DeSerialize`, `CSelectedOutput.cpp:300-363`. -/
def Table.deSerialize (t : Table) (p : Packed) : Out Table := do
  let nrows ← idx p.longs 0
  let ncols ← idx p.longs 1
  let hq ← readHeads p (toSize ncols) ⟨0, 2, 0, 0⟩
  let r ← hq.1.foldlM (fun (tq : Table × Pos) h =>
    (List.range (toSize nrows)).foldlM (fun (tq : Table × Pos) _ => readVar p h tq.2 tq.1) tq)
    (t, hq.2)
  r.1.endRow

/-- Conversion of one entry, `CSelectedOutput.cpp:378-398`. -/
def Var.toDouble : Var → ℚ
  | .long l => (l : ℚ)
  | .dbl d => d
  | _ => inactive

/-- The loop over the rows of one column, `CSelectedOutput.cpp:376-399`. -/
def doublizeCol (nRow : Nat) (col : List Var) : Out (List ℚ) :=
  (List.range nRow).foldlM (fun ds (i : Nat) => do
    let v ← idx col (i : Int)
    .ok (ds ++ [v.toDouble])) []

/-- `Doublize`, `CSelectedOutput.cpp:364-401`: the array; `nrow` and `ncol` are `nRow` and the
number of headings. -/
def Table.doublize (t : Table) : Out (List ℚ) :=
  (List.range t.heads.length).foldlM (fun ds (j : Nat) => do
    let col ← idx t.cols (j : Int)
    let c ← doublizeCol t.nRow col
    .ok (ds ++ c)) []

/-! ## `RunCellsThread` -/

/-- What happens to one cell: it is dry; it is run; or the run fails and the error handler mode
is 3. A run leaves the worker's `SelectedOutputMap`. -/
inductive CellRun
  | dry
  | wet (m : SMap Int Table)
  | failed (m : SMap Int Table)

/-- Columns from the dummy run, `/repo/src/PhreeqcRM.cpp:10277-10300`: the headings with an
empty value each. -/
def dummyTable (heads : List Name) : Out Table :=
  heads.foldlM (fun t h => t.pushBack h .empty) Table.new

/-- `CSelectedOutputMap` after the dummy run, `/repo/src/PhreeqcRM.cpp:10278-10300`. -/
def dummyMap (m : SMap Int Table) : Out (SMap Int Table) :=
  m.foldlM (fun c p => do
    let t ← dummyTable p.2.heads
    .ok (insert c p.1 t)) []

/-- Saving the row of a cell that was run, `/repo/src/PhreeqcRM.cpp:10414-10434`. -/
def saveRow (m c : SMap Int Table) : Out (SMap Int Table) :=
  m.foldlM (fun c p =>
    match find c p.1 with
    | none => .throw
    | some t => do
      let s ← p.2.serialize 0
      let t' ← t.deSerialize s
      .ok (insert c p.1 t')) c

/-- The blank row of a cell that was not run, `/repo/src/PhreeqcRM.cpp:10460-10471`. The
iterator is dereferenced without a check. -/
def blankRow (m c : SMap Int Table) : Out (SMap Int Table) :=
  m.foldlM (fun c p =>
    match find c p.1 with
    | none => .ub
    | some t => do
      let t' ← t.endRow
      .ok (insert c p.1 t')) c

/-- One cell of the loop, `/repo/src/PhreeqcRM.cpp:10333-10472`. The state is the worker's
`SelectedOutputMap` and `CSelectedOutputMap`. -/
def runCell (st : SMap Int Table × SMap Int Table) : CellRun →
    Out (SMap Int Table × SMap Int Table)
  | .dry => do
    let c ← blankRow st.1 st.2
    .ok (st.1, c)
  | .wet m => do
    let c ← saveRow m st.2
    .ok (m, c)
  | .failed m => do
    let c ← blankRow m st.2
    .ok (m, c)

/-- The selected output of one thread with selected output on, `/repo/src/PhreeqcRM.cpp:10256-10473`.
`dummy` is the worker's `SelectedOutputMap` after the dummy run. Copying the result back to the
worker's `SelectedOutputMap` (lines 10481-10495) is left out: the next call starts with a new
dummy run. -/
def runThread (dummy : SMap Int Table) (cells : List CellRun) : Out (SMap Int Table) := do
  let c ← dummyMap dummy
  let r ← cells.foldlM runCell (dummy, c)
  .ok r.2

/-! ## `GetSelectedOutput` -/

/-- `so.resize(n)`. -/
def resizeQ (so : List ℚ) (n : Nat) : List ℚ :=
  so.take n ++ List.replicate (n - so.length) 0

/-- One entry of a thread's table, `/repo/src/PhreeqcRM.cpp:4619-4624`. -/
def writeEntry (nxyz : Nat) (backward : List (List Nat)) (buf : List ℚ) (icol irow nrow start : Nat)
    (so : List ℚ) : Out (List ℚ) := do
  let cells ← idx backward ((start + irow : Nat) : Int)
  cells.foldlM (fun so i => do
    let v ← idx buf ((icol * nrow + irow : Nat) : Int)
    writeAt so (icol * nxyz + i) v) so

/-- One thread, `/repo/src/PhreeqcRM.cpp:4601-4630`. `assert(ncol_x = ncol)` checks nothing. -/
def writeThread (nxyz ncol : Nat) (backward : List (List Nat)) (nUser : Int)
    (st : List ℚ × Nat) (m : SMap Int Table) : Out (List ℚ × Nat) :=
  match find m nUser with
  | none => .throw
  | some t => do
    let buf ← t.doublize
    let so ← (List.range ncol).foldlM (fun so (icol : Nat) =>
      (List.range t.nRow).foldlM (fun so (irow : Nat) =>
        writeEntry nxyz backward buf icol irow t.nRow st.2 so) so) st.1
    .ok (so, st.2 + t.nRow)

/-- `GetSelectedOutput`, without MPI, `/repo/src/PhreeqcRM.cpp:4590-4637`. `workers` are the
`CSelectedOutputMap`s of the threads and `nUser` the current user number of worker 0. The
column count comes from worker 0 (`GetSelectedOutputColumnCount`, lines 4640-4660); when it
fails it returns a negative code and `resize` throws. An exception gives `IRM_FAIL` with the
partly written array. -/
def getSelectedOutput (nxyz : Nat) (backward : List (List Nat)) (workers : List (SMap Int Table))
    (nUser : Int) (so : List ℚ) : Out (List ℚ) :=
  if nUser < 0 then .throw
  else match workers with
    | [] => .ub
    | w0 :: _ =>
      match find w0 nUser with
      | none => .throw
      | some t0 => do
        let r ← workers.foldlM (writeThread nxyz t0.colCount backward nUser)
          (resizeQ so (nxyz * t0.colCount), 0)
        .ok r.1

end Verif.SelOut
