import Verif.CellRun.Worker

/-!
# What a time step of the reaction module is for
-/

namespace Verif.CellRun

variable {D : Type}

/-- Cells are treated once each, in order, from time `t0` over the time of `O`.  A cell that
is not active keeps its content and has an empty row; so has a cell whose chemistry fails,
when failures are accepted (`keep`). -/
inductive Works (E : Engine D) (O : Opts) (t0 : ℚ) (keep : Bool) (active : Int → Bool) :
    List Int → Maps D → Maps D → List (Option (Row D)) → Prop where
  | nil (m : Maps D) : Works E O t0 keep active [] m m []
  | dry (i : Int) (is : List Int) (m m' : Maps D) (rows : List (Option (Row D))) :
      active i = false → Works E O t0 keep active is m m' rows →
      Works E O t0 keep active (i :: is) m m' (none :: rows)
  | treated (i : Int) (is : List Int) (m m' : Maps D) (c' : Cell D) (r : Row D) (spent : ℚ)
      (rows : List (Option (Row D))) :
      active i = true → Treated E O (m .solution) t0 i (cellAt m i) c' [r] spent →
      Works E O t0 keep active is (withCell m i c') m' rows →
      Works E O t0 keep active (i :: is) m m' (some r :: rows)
  | failed (i : Int) (is : List Int) (m m' : Maps D) (r : List (Row D))
      (rows : List (Option (Row D))) :
      active i = true → keep = true → Fails E O (m .solution) t0 i (cellAt m i) r →
      Works E O t0 keep active is m m' rows →
      Works E O t0 keep active (i :: is) m m' (none :: rows)

/-- The last active cell of a list is one that does not fail: its row is not empty. -/
def LastFine (active : Int → Bool) (cells : List Int) (table : List (Option (Row D))) : Prop :=
  ∀ before i rest tb r tr, cells = before ++ i :: rest → table = tb ++ r :: tr →
    tb.length = before.length → active i = true → (∀ a ∈ rest, active a = false) → r ≠ none

end Verif.CellRun
