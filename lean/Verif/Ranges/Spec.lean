/-!
# What it means for worker ranges to partition the reaction cells

Independent of the model: only lists of (first cell, last cell) pairs.
-/

namespace Verif.Ranges

/-- The ranges `rs` cover `a, a+1, ..., b-1` in order, each non-empty, without gap
or overlap. -/
def Contig : Int → Int → List (Int × Int) → Prop
  | a, b, [] => a = b
  | a, b, r :: rs => r.1 = a ∧ r.1 ≤ r.2 ∧ Contig (r.2 + 1) b rs

/-- Range number `i` contains cell `c`. -/
def Owns (rs : List (Int × Int)) (i : Nat) (c : Int) : Prop :=
  ∃ r, rs[i]? = some r ∧ r.1 ≤ c ∧ c ≤ r.2

/-- A partition of `0 .. n-1` into `k` consecutive non-empty ranges. -/
def IsPartition (n k : Nat) (rs : List (Int × Int)) : Prop :=
  rs.length = k ∧ Contig 0 n rs

/-- Number of cells in a range. -/
def size (r : Int × Int) : Int := r.2 - r.1 + 1

end Verif.Ranges
