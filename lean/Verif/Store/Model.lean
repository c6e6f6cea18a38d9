import Verif.Base

/-!
# Storage bins

Model of `cxxStorageBin`, `/repo/src/IPhreeqcPhast/IPhreeqc/phreeqcpp/StorageBin.cxx`,
and of the reactant maps of one phreeqc instance (`Rxn_solution_map` and so on). Both
hold one map from user number to entity for each of eleven kinds of reactant.

Simplification: entities of all kinds share one type `α`; the user number stored inside
an entity (`Set_n_user_both`) is not part of it.
-/

namespace Verif.Store

/-- Kinds of reactant, in the order of `/repo/src/IPhreeqcPhast/IPhreeqc/phreeqcpp/StorageBin.cxx:126-193`. -/
inductive Kind where
  | solution | exchange | gasPhase | kinetics | ppAssemblage | ssAssemblage | surface
  | mix | reaction | temperature | pressure
  deriving DecidableEq, Repr

/-- A storage bin: for each kind a map from user number to entity. -/
abbrev Bin (α : Type) := Kind → Int → Option α

/-- The empty bin. -/
def empty {α : Type} : Bin α := fun _ _ => none

/-- `Set_Solution(n, &entity)` and its siblings, StorageBin.cxx:448-455. -/
def set {α : Type} (b : Bin α) (k : Kind) (n : Int) (v : α) : Bin α :=
  fun k' n' => if k' = k ∧ n' = n then some v else b k' n'

/-- `map.erase(n)` for one kind. -/
def erase {α : Type} (b : Bin α) (k : Kind) (n : Int) : Bin α :=
  fun k' n' => if k' = k ∧ n' = n then none else b k' n'

/-- Kinds handled by `cxxStorageBin::Remove`, StorageBin.cxx:1220-1254. -/
def removeKinds : List Kind :=
  [.solution, .exchange, .gasPhase, .kinetics, .ppAssemblage, .ssAssemblage, .surface, .mix,
    .reaction, .temperature, .pressure]

/-- `cxxStorageBin::Remove`, StorageBin.cxx:1220-1254. -/
def remove {α : Type} (b : Bin α) (n : Int) : Bin α :=
  removeKinds.foldl (fun b k => erase b k n) b

/-- If `src` has an entity, store it under kind `k` and number `n`. -/
def setIf {α : Type} (b : Bin α) (k : Kind) (n : Int) (src : Option α) : Bin α :=
  match src with
  | some v => set b k n v
  | none => b

/-- Kinds handled by `cxxStorageBin::Add`, StorageBin.cxx:126-193. -/
def addKinds : List Kind :=
  [.solution, .exchange, .gasPhase, .kinetics, .ppAssemblage, .ssAssemblage, .surface, .mix,
    .reaction, .temperature, .pressure]

/-- `cxxStorageBin::Add(src, n)`, StorageBin.cxx:126-193. -/
def add {α : Type} (b src : Bin α) (n : Int) : Bin α :=
  addKinds.foldl (fun b k => setIf b k n (src k n)) b

/-- Kinds handled by `cxxStorageBin::Copy`, StorageBin.cxx:344-437. -/
def copyKinds : List Kind :=
  [.solution, .exchange, .gasPhase, .kinetics, .ppAssemblage, .ssAssemblage, .surface, .mix,
    .reaction, .temperature, .pressure]

/-- `cxxStorageBin::Copy(destination, source)`, StorageBin.cxx:344-437. -/
def copy {α : Type} (b : Bin α) (d s : Int) : Bin α :=
  if d = s then b
  else copyKinds.foldl (fun b k => setIf b k d (b k s)) (remove b d)

/-- Kinds copied by `Phreeqc::phreeqc2cxxStorageBin(sb, n)`,
`/repo/src/IPhreeqcPhast/IPhreeqc/phreeqcpp/structures.cpp:3117-3181`: mixes, reactions,
temperatures and pressures are not copied. -/
def toBinKinds : List Kind :=
  [.solution, .exchange, .gasPhase, .kinetics, .ppAssemblage, .ssAssemblage, .surface]

/-- `Phreeqc::phreeqc2cxxStorageBin(sb, n)`, structures.cpp:3117-3181; `p` holds the
reactant maps of the instance. -/
def phreeqc2bin {α : Type} (p sb : Bin α) (n : Int) : Bin α :=
  toBinKinds.foldl (fun b k => setIf b k n (p k n)) sb

/-- Kinds copied by `Phreeqc::cxxStorageBin2phreeqc(sb, n)`, structures.cpp:3182-3280. -/
def toPhreeqcKinds : List Kind :=
  [.solution, .exchange, .gasPhase, .kinetics, .ppAssemblage, .ssAssemblage, .surface, .mix,
    .reaction, .temperature, .pressure]

/-- `Phreeqc::cxxStorageBin2phreeqc(sb, n)`, structures.cpp:3182-3280. -/
def bin2phreeqc {α : Type} (p sb : Bin α) (n : Int) : Bin α :=
  toPhreeqcKinds.foldl (fun b k => setIf b k n (sb k n)) p

/-- Kinds removed by `DELETE; -cell n`: `StorageBinList::GetAllItems`,
`/repo/src/IPhreeqcPhast/IPhreeqc/phreeqcpp/StorageBinList.cpp:118-134`, and
`Phreeqc::delete_entities`, ReadClass.cxx:265-460. -/
def deleteKinds : List Kind :=
  [.solution, .ppAssemblage, .exchange, .surface, .ssAssemblage, .gasPhase, .kinetics, .mix,
    .reaction, .temperature, .pressure]

/-- Input `DELETE; -cell n` run in one instance. -/
def deleteCell {α : Type} (p : Bin α) (n : Int) : Bin α :=
  deleteKinds.foldl (fun b k => erase b k n) p

end Verif.Store
