import Verif.Ranges.Spec
import Verif.Store.Model

/-!
# What it means for cells to be held by their owners

Uses only ranges and storage bins, not the loops that move or run cells.
-/

namespace Verif.Transfer

open Verif.Store Verif.Ranges

/-- The kinds of reactant that make up a reaction cell (those that
`InitialPhreeqc2Module` can set). -/
def CellKind (k : Kind) : Prop :=
  k = .solution ∨ k = .exchange ∨ k = .gasPhase ∨ k = .kinetics ∨ k = .ppAssemblage ∨
    k = .ssAssemblage ∨ k = .surface

/-- Every cell is held, with the contents `content`, by the worker whose range contains
it and by no other worker, as far as the kinds `P` are concerned. -/
def HeldByOwners {α : Type} (P : Kind → Prop) (rs : List (Int × Int))
    (content : Int → Kind → Option α) (b : Nat → Bin α) : Prop :=
  ∀ i c k, P k → (Owns rs i c → b i k c = content c k) ∧ (¬ Owns rs i c → b i k c = none)

end Verif.Transfer
