import Verif.Boundary.Model
import Verif.Getters.Model

/-!
# Species concentrations of boundary solutions

Model of `PhreeqcRM::InitialPhreeqc2SpeciesConcentrations`,
`/repo/src/PhreeqcRM.cpp:6411-6535`. The solutions and the mixture of an entry are those of
`InitialPhreeqc2Concentrations` (`Verif.Boundary.Model`): lines 6453-6505 repeat lines 5977-6030.
-/

namespace Verif.Species

open Verif.OMap Verif.Mixing Verif.Grid Verif.Boundary Verif.Setters

/-- One pass of the loop, `/repo/src/PhreeqcRM.cpp:6453-6525`. `nsp` is the number of species
names and `tab` is `s_num2rm_species_num`; the lookup inserts 0 for a number that is not there
(6516), as in `Verif.Getters.rmSpecies`. -/
def entrySp (st : Init) (nsp : Nat) (tab : List (Int × Nat)) (b1 b2 : List Int) (fr : List ℚ)
    (acc : Bin × List ℚ) (i : Nat) : Out (Bin × List ℚ) := do
  let n ← idx b1 (i : Int)
  let p := mixture st b2 fr i n acc.1
  let s ← Solution.mix p.1 p.2
  let d ← Getters.speciesRow nsp tab s.species
  let c ← writeComps b1.length nsp i d acc.2
  .ok (p.1, c)

/-- `InitialPhreeqc2SpeciesConcentrations`, `/repo/src/PhreeqcRM.cpp:6422-6535`: the array
afterwards and what the caller sees. -/
def boundarySp (st : Init) (nsp : Nat) (tab : List (Int × Nat)) (b1 b2 : List Int)
    (fr dest : List ℚ) : Out (List ℚ × Ret) :=
  if b1.length > 0 ∧ nsp > 0 then do
    let p ← (List.range b1.length).foldlM (entrySp st nsp tab b1 b2 fr)
      ((fun _ => none), resize dest (nsp * b1.length))
    .ok (p.2, .value .ok)
  else
    .ok (dest, (returnHandler st.mode [] .fail
      "PhreeqcRM::InitialPhreeqc2SpeciesConcentrations").2)

/-- The overload without mixing, `/repo/src/PhreeqcRM.cpp:6411-6419`. -/
def boundarySpSimple (st : Init) (nsp : Nat) (tab : List (Int × Nat)) (b1 : List Int)
    (dest : List ℚ) : Out (List ℚ × Ret) :=
  boundarySp st nsp tab b1 [] [] dest

end Verif.Species
