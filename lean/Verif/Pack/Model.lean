import Verif.Pack.Reactants

/-!
# Packing cells and moving them between processes (C59)

Model of `Serializer::Serialize`, `Serializer::Deserialize` and of the part of
`PhreeqcRM::RebalanceLoad` (MPI build) that moves cells from one process to another.

Simplifications: the reactant maps of an instance are modelled by their look-up functions; the
four MPI calls between packing and unpacking are taken to deliver the dictionary text and the two
vectors unchanged; integers do not overflow.
-/

namespace Verif.Pack

open Verif.OMap Verif.Serial

/-- The reactant maps of one PHREEQC instance that the serializer knows (Serializer.cxx:32-106):
`Utilities::Rxn_find` looks an entity up by its key in the map. -/
structure Cells where
  solution : Int → Option Solution
  exchange : Int → Option Exchange
  gasPhase : Int → Option GasPhase
  kinetics : Int → Option Kinetics
  pp : Int → Option PPAssemblage
  ss : Int → Option SSAssemblage
  surface : Int → Option Surface
  temperature : Int → Option Temperature
  pressure : Int → Option Pressure

/-- A packed entity with its `PACK_TYPE` (Serializer.h). -/
inductive Entity where
  | solution (x : Solution)
  | exchange (x : Exchange)
  | gasPhase (x : GasPhase)
  | kinetics (x : Kinetics)
  | pp (x : PPAssemblage)
  | ss (x : SSAssemblage)
  | surface (x : Surface)
  | temperature (x : Temperature)
  | pressure (x : Pressure)

/-- `ints.push_back(type); entity.Serialize(...)` (Serializer.cxx:35-36 and the like). -/
def putTagged {α : Type} (t : Int) (p : Put α) : Put α := putVia (fun x => (t, x)) (putPair putInt p)

/-- The type codes are those of `enum PACK_TYPE` (Serializer.h). -/
def putEntity : Put Entity
  | .solution x    => putTagged 0 putSolution x
  | .exchange x    => putTagged 1 putExchange x
  | .gasPhase x    => putTagged 2 putGasPhase x
  | .kinetics x    => putTagged 3 putKinetics x
  | .pp x          => putTagged 4 putPPAssemblage x
  | .ss x          => putTagged 5 putSSAssemblage x
  | .surface x     => putTagged 6 putSurface x
  | .temperature x => putTagged 7 putTemperature x
  | .pressure x    => putTagged 8 putPressure x

/-- One turn of the loop in `Serializer::Deserialize` up to the store (Serializer.cxx:123-210): an
unknown type ends the program (`exit(4)`), shown as `throw`. -/
def getEntity : Get Entity := fun d s =>
  match getInt d s with
  | .ok (t, s') =>
    if t = 0 then getVia .solution getSolution d s'
    else if t = 1 then getVia .exchange getExchange d s'
    else if t = 2 then getVia .gasPhase getGasPhase d s'
    else if t = 3 then getVia .kinetics getKinetics d s'
    else if t = 4 then getVia .pp getPPAssemblage d s'
    else if t = 5 then getVia .ss getSSAssemblage d s'
    else if t = 6 then getVia .surface getSurface d s'
    else if t = 7 then getVia .temperature getTemperature d s'
    else if t = 8 then getVia .pressure getPressure d s'
    else .throw
  | .throw => .throw
  | .ub => .ub

/-- `map[entity.Get_n_user()] = entity` (Serializer.cxx:130-132 and the like): the key is the
number the entity carries. -/
def keep {α : Type} (f : Int → Option α) (num : α → Int) (x : α) : Int → Option α :=
  fun n => if n = num x then some x else f n

/-- The stores at the end of the cases (Serializer.cxx:132, 140, 148, 156, 165, 173, 181, 189,
197). -/
def Cells.store (u : Cells) : Entity → Cells
  | .solution x    => { u with solution := keep u.solution Solution.nUser x }
  | .exchange x    => { u with exchange := keep u.exchange Exchange.nUser x }
  | .gasPhase x    => { u with gasPhase := keep u.gasPhase GasPhase.nUser x }
  | .kinetics x    => { u with kinetics := keep u.kinetics Kinetics.nUser x }
  | .pp x          => { u with pp := keep u.pp PPAssemblage.nUser x }
  | .ss x          => { u with ss := keep u.ss SSAssemblage.nUser x }
  | .surface x     => { u with surface := keep u.surface Surface.nUser x }
  | .temperature x => { u with temperature := keep u.temperature Temperature.nUser x }
  | .pressure x    => { u with pressure := keep u.pressure Pressure.nUser x }

/-- Body of the loop in `Serializer::Serialize` (Serializer.cxx:30-112): what is found under the
number `i`, in the order in which it is packed. -/
def Cells.found (w : Cells) (t p : Bool) (i : Int) : List Entity :=
  (w.solution i).toList.map .solution ++
  (w.exchange i).toList.map .exchange ++
  (w.gasPhase i).toList.map .gasPhase ++
  (w.kinetics i).toList.map .kinetics ++
  (w.pp i).toList.map .pp ++
  (w.ss i).toList.map .ss ++
  (w.surface i).toList.map .surface ++
  (if t then (w.temperature i).toList.map .temperature else []) ++
  (if p then (w.pressure i).toList.map .pressure else [])

/-- The members of a `Serializer` (Serializer.h). -/
structure Message where
  dict : Dict
  ints : List Int
  dbls : List ℚ

def Message.empty : Message := ⟨Dict.empty, [], []⟩

/-- `Serializer::Serialize(phreeqc, start, end, include_t, include_p)` (Serializer.cxx:28-114). -/
def Message.serialize (w : Cells) (t p : Bool) (start last : Int) (m : Message) : Message :=
  let es := (List.range (last + 1 - start).toNat).flatMap (fun j => w.found t p (start + (j : Int)))
  let x := putAll putEntity es m.dict
  ⟨x.1, m.ints ++ x.2.1, m.dbls ++ x.2.2⟩

/-- The `while` loop of `Serializer::Deserialize` (Serializer.cxx:117-213). The first argument
bounds the number of turns; `unpack_turns` shows that the number of integers is enough. -/
def unpack : Nat → Dict → Stream → Cells → Out Cells
  | 0, _, s, u => if s.ints = [] then .ok u else .ub
  | n + 1, d, s, u =>
    if s.ints = [] then .ok u
    else match getEntity d s with
      | .ok (e, s') => unpack n d s' (u.store e)
      | .throw => .throw
      | .ub => .ub

/-- `Serializer::Deserialize` (Serializer.cxx:116-213). -/
def deserialize (d : Dict) (ints : List Int) (dbls : List ℚ) (u : Cells) : Out Cells :=
  unpack ints.length d ⟨ints, dbls⟩ u

/-- Packing in process `pold` (PhreeqcRM.cpp:7946-7951): one serializer, the cells one by one. -/
def packCells (w : Cells) (ks : List Int) : Message :=
  ks.foldl (fun m k => m.serialize w false false k k) Message.empty

/-- Sending and unpacking (PhreeqcRM.cpp:7952-8001): the dictionary goes as text and is rebuilt.
`&(GetInts()[0])` and `&(GetDoubles()[0])` are undefined for empty vectors. -/
def receive (m : Message) (u : Cells) : Out Cells :=
  if m.ints = [] ∨ m.dbls = [] then .ub
  else deserialize (Dict.ofText m.dict.text) m.ints m.dbls u

/-- `DELETE; -cell` with the numbers (PhreeqcRM.cpp:8011-8031); the run is taken to succeed. -/
def Cells.deleteCells (w : Cells) (ks : List Int) : Cells :=
  let del {α : Type} (f : Int → Option α) : Int → Option α := fun n => if n ∈ ks then none else f n
  ⟨del w.solution, del w.exchange, del w.gasPhase, del w.kinetics, del w.pp, del w.ss,
   del w.surface, del w.temperature, del w.pressure⟩

/-- One entry of `transfer_pair` (PhreeqcRM.cpp:7937-8034): afterwards process `pold` holds the
first component and process `pnew` the second. -/
def moveCells (ks : List Int) (wold wnew : Cells) : Out (Cells × Cells) :=
  match receive (packCells wold ks) wnew with
  | .ok u => .ok (wold.deleteCells ks, u)
  | .throw => .throw
  | .ub => .ub

end Verif.Pack
