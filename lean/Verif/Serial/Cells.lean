import Verif.Serial.Entities

/-!
# Packing of the reactants of cells

Model of `Serializer::Serialize` and `Serializer::Deserialize`
(`/repo/src/IPhreeqcPhast/IPhreeqc/phreeqcpp/Serializer.cxx`), which send the reactants of cells
from one process to another.
-/

namespace Verif.Serial

open Verif.OMap Verif.NameDouble Verif.Raw

/-- The maps of reactants of a phreeqc instance that are packed. -/
structure Cells where
  solutions : SMap Int SolState
  exchanges : SMap Int Exchange
  gases : SMap Int GasPhase
  kinetics : SMap Int Kinetics
  pps : SMap Int PPAssemblage
  sss : SMap Int SSAssemblage
  surfaces : SMap Int Surface
  temperatures : SMap Int StepList
  pressures : SMap Int StepList
  deriving DecidableEq

/-- A packed reactant with its kind. -/
inductive Entity where
  | solution (x : SolState)
  | exchange (x : Exchange)
  | gas (x : GasPhase)
  | kinetics (x : Kinetics)
  | pp (x : PPAssemblage)
  | ss (x : SSAssemblage)
  | surface (x : Surface)
  | temperature (x : StepList)
  | pressure (x : StepList)
  deriving DecidableEq

/-- A tag, the enumeration of Serializer.h:16-27, and the members of a reactant. -/
def putEntity : Put Entity
  | .solution x => (putInt ▹ putSolution) (0, x)
  | .exchange x => (putInt ▹ putExchange) (1, x)
  | .gas x => (putInt ▹ putGasPhase) (2, x)
  | .kinetics x => (putInt ▹ putKinetics) (3, x)
  | .pp x => (putInt ▹ putPP) (4, x)
  | .ss x => (putInt ▹ putSSAssemblage) (5, x)
  | .surface x => (putInt ▹ putSurface) (6, x)
  | .temperature x => (putInt ▹ putSteps) (7, x)
  | .pressure x => (putInt ▹ putSteps) (8, x)

/-- The reactants of cell `i` in the order of the body of the loop of `Serialize`
(Serializer.cxx:32-112); the flags are `include_t` and `include_p`. -/
def Cells.entities (m : Cells) (t p : Bool) (i : Int) : List Entity :=
  ((find m.solutions i).map Entity.solution).toList
  ++ ((find m.exchanges i).map Entity.exchange).toList
  ++ ((find m.gases i).map Entity.gas).toList
  ++ ((find m.kinetics i).map Entity.kinetics).toList
  ++ ((find m.pps i).map Entity.pp).toList
  ++ ((find m.sss i).map Entity.ss).toList
  ++ ((find m.surfaces i).map Entity.surface).toList
  ++ (if t then ((find m.temperatures i).map Entity.temperature).toList else [])
  ++ (if p then ((find m.pressures i).map Entity.pressure).toList else [])

/-- The numbers `start`, ..., `end`. -/
def interval (a b : Int) : List Int := (List.range (b + 1 - a).toNat).map (fun n : Nat => a + (n : Int))

/-- `Serializer::Serialize` (Serializer.cxx:28-114) called with the ranges of a list in turn, as
PhreeqcRM.cpp:7946-7951 does with single cells; the packer keeps one dictionary and two
vectors. -/
def Cells.serialize (m : Cells) (t p : Bool) (ranges : List (Int × Int)) (d : Dict) :
    Dict × List Int × List ℚ :=
  putAll putEntity
    (ranges.flatMap (fun r => (interval r.1 r.2).flatMap (m.entities t p))) d

/-- The case of `Deserialize` for a tag (Serializer.cxx:126-199). An unknown tag ends the
program (Serializer.cxx:200-209), here `throw`. -/
def getEntity : Get Entity := fun d s =>
  match getInt d s with
  | .ok (tag, s') =>
    match tag with
    | 0 => getVia Entity.solution getSolution d s'
    | 1 => getVia Entity.exchange getExchange d s'
    | 2 => getVia Entity.gas getGasPhase d s'
    | 3 => getVia Entity.kinetics getKinetics d s'
    | 4 => getVia Entity.pp getPP d s'
    | 5 => getVia Entity.ss getSSAssemblage d s'
    | 6 => getVia Entity.surface getSurface d s'
    | 7 => getVia Entity.temperature getSteps d s'
    | 8 => getVia Entity.pressure getSteps d s'
    | _ => .throw
  | .throw => .throw
  | .ub => .ub

/-- `map[n_user] = entity` for the map of the kind, for example Serializer.cxx:132. -/
def Cells.store (m : Cells) : Entity → Cells
  | .solution x => { m with solutions := OMap.insert m.solutions x.head.nUser x }
  | .exchange x => { m with exchanges := OMap.insert m.exchanges x.head.nUser x }
  | .gas x => { m with gases := OMap.insert m.gases x.head.nUser x }
  | .kinetics x => { m with kinetics := OMap.insert m.kinetics x.head.nUser x }
  | .pp x => { m with pps := OMap.insert m.pps x.head.nUser x }
  | .ss x => { m with sss := OMap.insert m.sss x.head.nUser x }
  | .surface x => { m with surfaces := OMap.insert m.surfaces x.head.nUser x }
  | .temperature x => { m with temperatures := OMap.insert m.temperatures x.head.nUser x }
  | .pressure x => { m with pressures := OMap.insert m.pressures x.head.nUser x }

/-- The loop `while (ii < ints.size())` (Serializer.cxx:121-211). Every pass takes at least one
integer, so the number of integers bounds the number of passes. -/
def deserializeLoop : Nat → Dict → Stream → Cells → Out (Cells × Stream)
  | 0, _, s, m => .ok (m, s)
  | n + 1, d, s, m =>
    if s.ints = [] then .ok (m, s)
    else match getEntity d s with
      | .ok (e, s') => deserializeLoop n d s' (m.store e)
      | .throw => .throw
      | .ub => .ub

/-- `Serializer::Deserialize` (Serializer.cxx:116-213). -/
def Cells.deserialize (m : Cells) (d : Dict) (ints : List Int) (dbls : List ℚ) :
    Out (Cells × Stream) :=
  deserializeLoop ints.length d ⟨ints, dbls⟩ m

end Verif.Serial
