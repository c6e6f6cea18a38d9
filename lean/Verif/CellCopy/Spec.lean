import Verif.InitCond.Spec

/-! # Which cell is copied, and what a copied cell holds -/

namespace Verif.CellCopy

open Verif.OMap Verif.NameDouble Verif.Store Verif.Mapping Verif.Transfer Verif.Mixing Verif.InitCond

/-- Cell `m` is the one meant by `n`: itself, or for negative `n` the solution with the largest
number. -/
def Chosen (pb : Bin Entity) (n m : Int) : Prop :=
  0 ≤ m ∧ pb .solution m ≠ none ∧
    (0 ≤ n → m = n) ∧ (n < 0 → ∀ x, pb .solution x ≠ none → x ≤ m)

/-- `keys` lists the numbers of the solutions in increasing order, as the map does. -/
def KeysOf (pb : Bin Entity) (keys : List Int) : Prop :=
  keys.Pairwise (· < ·) ∧ ∀ n, n ∈ keys ↔ pb .solution n ≠ none

/-- What cell `m` gives to a reaction cell with the given porosity, saturation and volume: the solution
fills the water volume, every other reactant is scaled as its units say. -/
structure Copied (pb : Bin Entity) (m : Int) (units : Kind → Nat) (por sat rv : ℚ)
    (cell : Kind → Option Entity) : Prop where
  sol : ∃ s : Solution, cell .solution = some (.sol s) ∧
    ∀ X, X ∈ extensives ∨ (∃ el, X = fun a : Solution => val a.totals el) →
      X s = rv * por * sat * (pb .solution m).elim 0 (perVolume X)
  solid : ∀ k e, CellKind k → k ≠ .solution → pb k m = some e →
    ∃ r : Reactant, cell k = some (.rx r) ∧
      ∀ q φ, Factor por rv (units k) φ → measure q k r = φ * amountOf q k e

/-- The state of the call: everything is defined and has its size. -/
structure Ready (F : Name → Name) (T : GasType) (g : List Int) (s : MapState) (st : Settings)
    (pb : Bin Entity) : Prop where
  con : Consistent g s
  len : g.length = s.nxyz
  por : st.por.length = s.nxyz
  sat : st.sat.length = s.nxyz
  rv : st.rv.length = s.nxyz
  por0 : ∀ x ∈ st.por, 0 ≤ x
  sat0 : ∀ x ∈ st.sat, 0 ≤ x
  rv0 : ∀ x ∈ st.rv, 0 ≤ x
  stock : Stock F T pb
  units : ∀ k, st.units k ≤ 2

/-- The copy for grid cell `j`. -/
def CopiedAt (pb : Bin Entity) (m : Int) (st : Settings) (j : Nat) (cell : Kind → Option Entity) :
    Prop :=
  ∃ por sat rv, st.por[j]? = some por ∧ st.sat[j]? = some sat ∧ st.rv[j]? = some rv ∧
    Copied pb m st.units por sat rv cell

end Verif.CellCopy
