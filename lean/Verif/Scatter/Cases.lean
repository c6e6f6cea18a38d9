import Verif.Scatter.Props

/-!
# Concrete cases for scatter and gather
-/

namespace Verif.Scatter

open Verif.Mapping Verif.Ranges

/-- Six grid cells, four reaction cells (grid cells 0 and 1 share one, cell 2 is inactive), three
processes. -/
def exGrid : List Int := [0, 0, -1, 1, 2, 3]

def exMap : MapState :=
  ⟨6, 3, 4, [0, -1, -1, 1, 2, 3], [[0, 1], [3], [4], [5]], [(0, 1), (2, 2), (3, 3)]⟩

theorem exMap_consistent : Consistent exGrid exMap :=
  (createMapping_consistent ⟨6, 3, 6, [], [], []⟩ exMap exGrid (by decide)).1

/-- The parts of an array. -/
example : scatter exMap ([10, 11, 12, 13, 14, 15] : List ℚ) = .ok [[10, 13], [14], [15]] := by
  decide +kernel

/-- The hypotheses of `scatter_gather` hold for three unequal parts. -/
example : Sized exMap.ranges ([[1, 2], [3], [4]] : List (List ℚ)) :=
  List.Forall₂.cons rfl (List.Forall₂.cons rfl (List.Forall₂.cons rfl List.Forall₂.nil))

/-- The hypothesis of `gather_scatter_symmetric` holds for an array that differs only between
reaction cells. -/
example : ∀ (i j : Nat) (x : Int), 0 ≤ x → exGrid[i]? = some x → exGrid[j]? = some x →
    ([7, 7, 1, 8, 9, 10] : List ℚ)[i]? = ([7, 7, 1, 8, 9, 10] : List ℚ)[j]? := by
  intro i j x hx hi hj
  have h1 : i < 6 := (List.getElem?_eq_some_iff.mp hi).1
  have h2 : j < 6 := (List.getElem?_eq_some_iff.mp hj).1
  have key : ∀ i < 6, ∀ j < 6, exGrid[i]? = exGrid[j]? →
      ([7, 7, 1, 8, 9, 10] : List ℚ)[i]? = ([7, 7, 1, 8, 9, 10] : List ℚ)[j]? := by
    decide +kernel
  exact key i h1 j h2 (hi.trans hj.symm)

/-- C60 as stated is false: the second grid cell of a reaction cell gets the value of the first,
and an inactive cell gets whatever the destination held. -/
theorem gather_scatter_violated :
    ∃ (g : List Int) (s : MapState) (source dest : List ℚ), Consistent g s ∧
      source.length = s.nxyz ∧
      (scatter s source >>= fun ps => gather s ps dest) = .ok [10, 10, 0, 13, 14, 15] ∧
      source = [10, 11, 12, 13, 14, 15] :=
  ⟨exGrid, exMap, [10, 11, 12, 13, 14, 15], [], exMap_consistent, rfl, by decide +kernel, rfl⟩

end Verif.Scatter
