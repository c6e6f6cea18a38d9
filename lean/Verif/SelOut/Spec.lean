import Verif.SelOut.Model

/-!
# What a selected-output table should be

A table is a list of headings and a list of finished rows; a row is the list of values given
for headings, the last one counts.
-/

namespace Verif.SelOut

/-- Values given in a row, in order. -/
abbrev Row := List (Name × Var)

/-- The value of a heading in a row: the last one given, empty if none. -/
def Row.value (r : Row) (h : Name) : Var :=
  match r.reverse.find? (fun p => p.1 = h) with
  | some p => p.2
  | none => .empty

/-- Headings in order of first use, finished rows, the row being written. -/
structure Abs where
  heads : List Name
  done  : List Row
  cur   : Row

/-- An empty table. -/
def Abs.new : Abs := ⟨[], [], []⟩

/-- What can be done to a table. -/
inductive Op
  | push (h : Name) (v : Var)
  | endRow

/-- The specification of the operations. A row without any heading is not kept. -/
def Abs.step (a : Abs) : Op → Abs
  | .push h v => { a with heads := if h ∈ a.heads then a.heads else a.heads ++ [h],
                          cur := a.cur ++ [(h, v)] }
  | .endRow => if a.heads = [] then a else { a with done := a.done ++ [a.cur], cur := [] }

/-- The operations on the modelled table. -/
def Table.step (t : Table) : Op → Out Table
  | .push h v => t.pushBack h v
  | .endRow => t.endRow

/-- What `Get` should return: row 0 has the headings, row `r` the `r`-th finished row. -/
def Abs.get (a : Abs) (r c : Int) : GetResult :=
  if r < 0 ∨ a.heads = [] ∨ (a.done.length : Int) < r then .invalidRow
  else if c < 0 then .invalidCol
  else match a.heads[c.toNat]? with
    | none => .invalidCol
    | some h =>
      if r = 0 then .val (.str h)
      else match a.done[(r - 1).toNat]? with
        | none => .invalidRow
        | some row => .val (row.value h)

/-- The number a caller of `GetSelectedOutput` should see for a value: numbers as they are,
everything else as `1.0e30f`, which as a double is this integer. -/
def Number : Var → ℚ → Prop
  | .long l, x => x = l
  | .dbl d, x => x = d
  | .empty, x => x = 1000000015047466219876688855040
  | .error _, x => x = 1000000015047466219876688855040
  | .str _, x => x = 1000000015047466219876688855040

end Verif.SelOut
