import Verif.InitCond.Model
import Verif.Mapping.Props
import Verif.Transfer.Spec
import Verif.Mixing.SolutionSpec

/-!
# What initial conditions should do

Stated with the arrays of the caller, the mapping and the reactants; the code's loops are not
used.
-/

namespace Verif.InitCond

open Verif.OMap Verif.NameDouble Verif.Store Verif.Mapping Verif.Transfer Verif.Mixing

/-- The order of the kinds in the arrays (documentation of `InitialPhreeqc2Module`,
`/repo/src/PhreeqcRM.h`: solutions, equilibrium phases, exchangers, surfaces, gas phases, solid
solutions, kinetics). -/
def position : Kind → Option Nat
  | .solution => some 0
  | .ppAssemblage => some 1
  | .exchange => some 2
  | .surface => some 3
  | .gasPhase => some 4
  | .ssAssemblage => some 5
  | .kinetics => some 6
  | _ => none

/-- The entry of an array for kind `k` and grid cell `j`. -/
def entry {β : Type} (nxyz : Nat) (l : List β) (k : Kind) (j : Nat) : Option β :=
  (position k).bind (fun p => l[p * nxyz + j]?)

/-- The grid cell whose data initialise reaction cell `c`. -/
def primary (s : MapState) (c : Nat) : Option Nat := (s.backward[c]?).bind List.head?

/-- Cell `c` refers to reactant `n` of kind `k`. -/
def Refers (s : MapState) (a : Args) (c : Nat) (k : Kind) (n : Int) : Prop :=
  0 ≤ n ∧ ∃ j, primary s c = some j ∧
    (entry s.nxyz a.ic1 k j = some n ∨ entry s.nxyz a.ic2 k j = some n)

/-- The arrays have the size asked for. -/
structure Sizes (s : MapState) (st : Settings) (a : Args) : Prop where
  ic1 : a.ic1.length = 7 * s.nxyz
  ic2 : a.ic2.length = 7 * s.nxyz
  fr : a.fr.length = 7 * s.nxyz
  por : st.por.length = s.nxyz
  sat : st.sat.length = s.nxyz
  rv : st.rv.length = s.nxyz

/-- Reactants per litre of: representative volume (0), water (1), rock (2). -/
inductive Factor (por rv : ℚ) : Nat → ℚ → Prop
  | bulk : Factor por rv 0 rv
  | water : Factor por rv 1 (rv * por)
  | rock : Factor por rv 2 (rv * (1 - por))

/-! ## The contents of the InitialPhreeqc instance -/

/-- A reactant of kind `k`. -/
def OfKind : Kind → Reactant → Prop
  | .exchange, .exch _ => True
  | .ppAssemblage, .pp _ => True
  | .gasPhase, .gas _ => True
  | .ssAssemblage, .ss _ => True
  | .kinetics, .kin _ => True
  | .surface, .surf _ => True
  | _, _ => False

/-- What the definitions of the user must meet: solutions have volume and water; reactants
are stored under their kind; a phase has one reaction formula, gas phases have one type (the
conditions of C49 and C53). -/
structure Stock (F : Name → Name) (T : GasType) (pb : Bin Entity) : Prop where
  sols : ∀ n e, pb .solution n = some e →
    ∃ s : Solution, e = .sol s ∧ 0 < s.solnVol ∧ 0 < s.massWater ∧ s.Ordered
  rxs : ∀ k n e, k ≠ .solution → CellKind k → pb k n = some e →
    ∃ r : Reactant, e = .rx r ∧ r.Valid F T ∧ OfKind k r

/-- Amount of a quantity in an entity. -/
def amountOf (q : Quantity) (k : Kind) : Entity → ℚ
  | .rx r => measure q k r
  | .sol _ => 0

/-- A member of a solution. -/
def memberOf (X : Solution → ℚ) : Entity → ℚ
  | .sol s => X s
  | .rx _ => 0

/-- The amount per volume of solution. -/
def perVolume (X : Solution → ℚ) : Entity → ℚ := memberOf (fun s => X s / s.solnVol)

/-- The second part of a mixture, if there is one. -/
def second {E : Type} (ents : Int → Option E) (X : E → ℚ) (n2 : Int) : ℚ :=
  if 0 ≤ n2 then (ents n2).elim 0 X else 0

end Verif.InitCond
