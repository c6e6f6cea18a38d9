import Verif.Boundary.Model
import Verif.Conc.Spec
import Verif.Mixing.SolutionSpec

/-! # What the concentrations of a boundary are -/

namespace Verif.Boundary

open Verif.OMap Verif.NameDouble Verif.Mixing Verif.Conc

/-- Moles `m` of component `k` in the solution `s`. With water as a component (of `gw` grams per
mole), hydrogen and oxygen are those in excess of water. -/
def Amount (h2o : Bool) (gw : ℚ) (es : List Name) (k : Nat) (s : Solution) (m : ℚ) : Prop :=
  match h2o, k with
  | true, 0 => m = s.massWater * 1000 / gw
  | true, 1 => m = s.totalH - 2 * (s.massWater * 1000 / gw)
  | true, 2 => m = s.totalO - s.massWater * 1000 / gw
  | true, 3 => m = s.cb
  | true, k + 4 => ∃ e, es[k]? = some e ∧ Total s.totals e m
  | false, 0 => m = s.totalH
  | false, 1 => m = s.totalO
  | false, 2 => m = s.cb
  | false, k + 3 => ∃ e, es[k]? = some e ∧ Total s.totals e m

/-- A solution as left by a calculation: water, volume and density are positive. -/
structure Usable (s : Solution) : Prop where
  ordered : s.Ordered
  names   : ∀ p ∈ s.totals, GoodName p.1
  water   : 0 < s.massWater
  vol     : 0 < s.solnVol
  dens    : 0 < s.density

/-- Components as made by `FindComponents` and positive gram formula weights. -/
structure Ready (st : Init) (es : List Name) : Prop where
  comps : st.comps = (if st.h2o then ["H2O".toList] else []) ++
    ["H".toList, "O".toList, "Charge".toList] ++ es
  elems : Elements es
  gfwl  : st.gfw.length = st.comps.length
  gfw   : ∀ x ∈ st.gfw, 0 < x
  sols  : Sorted st.sols

/-- The solution meant by a first number: the one with that number, or for a negative number the
one with the highest number. (For the code the number must not be below that of a MIX, see
`mix_number_violated`.) -/
def First (st : Init) (n : Int) (s : Solution) : Prop :=
  (0 ≤ n ∧ find st.sols n = some s) ∨
  (n < 0 ∧ ∃ k, 0 ≤ k ∧ find st.sols k = some s ∧ (∀ j ∈ keys st.sols, j ≤ k) ∧
    ∀ j ∈ st.mixes, j ≤ k)

/-- The fraction of the first solution of entry `i`: 1 if the list is too short. -/
def Fraction (fr : List ℚ) (i : Nat) (f : ℚ) : Prop :=
  fr[i]? = some f ∨ (fr[i]? = none ∧ f = 1)

/-- No second solution is given for entry `i`. -/
def Alone (b2 : List Int) (i : Nat) : Prop := ∀ n, b2[i]? = some n → n < 0

/-- Solutions and fraction of an entry that can be mixed. -/
inductive Good (st : Init) (b2 : List Int) (fr : List ℚ) (i : Nat) (s1 : Solution) : Prop
  | alone (f : ℚ) : Alone b2 i → Fraction fr i f → 0 < f → Good st b2 fr i s1
  | both (f : ℚ) (n : Int) (s2 : Solution) : b2[i]? = some n → 0 ≤ n →
      find st.sols n = some s2 → Usable s2 → Fraction fr i f → 0 ≤ f → f ≤ 1 →
      Good st b2 fr i s1

end Verif.Boundary
