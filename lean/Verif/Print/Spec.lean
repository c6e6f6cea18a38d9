import Mathlib.Algebra.Order.Field.Rat

/-!
# What the output file holds after a reaction step

Stated in terms of the mapping given by the user, of the arrays set by them, and of what the
calculation of each reaction cell yields.
-/

namespace Verif.Print

/-- The grid cells mapped to reaction cell `n`, in increasing order. -/
def cellsOf (g : List Int) (n : Nat) : List Nat :=
  (List.range g.length).filter (fun k => g[k]? == some (n : Int))

/-- What becomes of a cell. -/
inductive Fate where
  | dry
  | failed
  | done (text : String)

/-- Pieces of text one after the other. -/
def cat (l : List String) : String := l.foldr (· ++ ·) ""

/-- The section of a reaction cell: the time, its number, the grid cells it stands for, then what
became of it. -/
def sectionOf (time : String) (n : Nat) (cells : List Nat) (f : Fate) : String :=
  cat ["Time:                   ", time, "\n",
       "Chemistry cell:         ", toString n, "\n",
       "Grid cell(s) (0-based): ", cat (cells.map (fun k => toString k ++ " ")), "\n",
       match f with
       | .dry => "Cell is dry.\n"
       | .failed => "Calculation failure.\n"
       | .done t => t]

/-- Saturation above the limit at the first grid cell of reaction cell `n`. -/
def Wet (g : List Int) (sat : List ℚ) (n : Nat) : Prop :=
  ∃ k s, (cellsOf g n).head? = some k ∧ sat[k]? = some s ∧ 1 / 1000000 < s

/-- `f` is what becomes of reaction cell `n` when its calculation counts errors iff `bad`, and
prints `text`. -/
def FateOf (g : List Int) (sat : List ℚ) (n : Nat) (bad : Bool) (text : String) (f : Fate) :
    Prop :=
  (¬ Wet g sat n → f = .dry) ∧
  (Wet g sat n → bad = true → f = .failed) ∧
  (Wet g sat n → bad = false → f = .done text)

/-- What one worker leaves when a cell ends its run: the sections of the cells `l` before the
first one with `stop`, then the printout `raw` of that cell. -/
def reachedOf (stop : Nat → Bool) (sec raw : Nat → String) (l : List Nat) : String :=
  cat ((l.takeWhile (fun n => !stop n)).map sec) ++
    match l.find? stop with
    | some n => raw n
    | none => ""

open Classical in
/-- The section of reaction cell `n`, if one of its grid cells is to be printed. -/
noncomputable def shownOf (g mask : List Int) (time : String) (fate : Nat → Fate) (n : Nat) : String :=
  if ∃ k ∈ cellsOf g n, ∃ m, mask[k]? = some m ∧ m ≠ 0 then
    sectionOf time n (cellsOf g n) (fate n)
  else ""

/-- The file: the sections of the reaction cells to be printed, in order of reaction cells. -/
noncomputable def fileOf (g mask : List Int) (count : Nat) (time : String) (fate : Nat → Fate) : String :=
  cat ((List.range count).map (shownOf g mask time fate))

/-- All grid cells of a reaction cell agree on whether it is to be printed. -/
def Agree (g : List Int) (mask : List Int) : Prop :=
  ∀ (k k' : Nat) (n : Nat) (m m' : Int), g[k]? = some (n : Int) → g[k']? = some (n : Int) →
    mask[k]? = some m → mask[k']? = some m' → (m = 0 ↔ m' = 0)

end Verif.Print
