import Verif.NameDouble.Model

/-!
# The lists of aqueous species and of saturation indices

The part of `PhreeqcRM::FindComponents` that makes them, `/repo/src/PhreeqcRM.cpp:2906-2980`, read by users through `GetSpeciesNames`,
`GetSpeciesZ`, `GetSpeciesD25`, `GetSpeciesStoichiometry`, `GetSpeciesCount`, `GetSINames` and `GetSICount`
(`/repo/src/PhreeqcRM.h:2444, 2479, 2598, 2685, 2721, 2202, 2236`). The other lists are in `Verif.Components`.

Files without path are in `/repo/src/IPhreeqcPhast/IPhreeqc/phreeqcpp/`. Simplifications: doubles are rationals; whether a species or a phase
is in the model of the solution with all components (`inout()`) is given; an element list ends at its terminator.
-/

namespace Verif.Catalog

open Verif.OMap Verif.NameDouble

/-- A species of the database (`class species`): `name`, `z`, `dw`, `next_elt`, and whether it is in the model of the solution. -/
structure Raw where
  name : Name
  z : ℚ
  dw : ℚ
  elements : List (Name × ℚ)
  inn : Bool

/-- A phase of the database: `name` and `in == TRUE`. -/
structure Phase where
  name : Name
  inn : Bool

/-- The array `s_x` with the number of each species: `s[i]->number = i` (tidy.cpp:2277-2279), and the species in the model in the order of
`s` (prep.cpp:1116-1142; the test of the type is part of `inn`). -/
def sx (s : List Raw) : List (Raw × Nat) := s.zipIdx.filter (fun p => p.1.inn)

/-- The lists of species. -/
structure Lists where
  names : List Name
  zs : List ℚ
  ds : List ℚ
  tab : SMap Int Nat
  stoich : List ND

/-- `cxxNameDouble nd(next_elt)` (NameDouble.cxx:39-49): later entries overwrite. -/
def ofElements (l : List (Name × ℚ)) : ND := l.foldl (fun m p => insert m p.1 p.2) []

/-- One pass of the loop, `/repo/src/PhreeqcRM.cpp:2936-2945`. -/
def step (l : Lists) (p : (Raw × Nat) × Nat) : Lists :=
  { names := l.names ++ [p.1.1.name]
    zs := l.zs ++ [p.1.1.z]
    ds := l.ds ++ [p.1.1.dw]
    tab := insert l.tab (p.1.2 : Int) p.2
    stoich := l.stoich ++ [add (ofElements p.1.1.elements) "Charge".toList p.1.1.z] }

/-- The lists after the clearing and the loop, `/repo/src/PhreeqcRM.cpp:2931-2945`. -/
def listsOf (x : List (Raw × Nat)) : Lists := x.zipIdx.foldl step ⟨[], [], [], [], []⟩

/-- The members of the module. -/
structure State where
  lists : Lists
  si : List Name

/-- A new module. -/
def new : State := ⟨⟨[], [], [], [], []⟩, []⟩

/-- What the two runs of the InitialPhreeqc instance do: the solution fails; or it gives species and phases, and the deletion of the solution
succeeds or not. -/
inductive Run
  | failed
  | done (s : List Raw) (ph : List Phase) (deleted : Bool)

/-- The lists in `FindComponents`, `/repo/src/PhreeqcRM.cpp:2907-2980`: members afterwards, and whether the function goes on. The phases
are added in lines 2963-2969; nothing clears them. -/
def find (st : State) : Run → State × Bool
  | .failed => (st, false)
  | .done s ph deleted =>
    (⟨listsOf (sx s), st.si ++ (ph.filter (fun p => p.inn)).map Phase.name⟩, deleted)

/-- A history of calls of a new module. -/
def after (rs : List Run) : State := rs.foldl (fun st r => (find st r).1) new

end Verif.Catalog
