import Verif.Serial.Cells
import Verif.Transfer.Model

/-!
# Moving cells between MPI processes

Model of the part of `RebalanceLoad` that moves cells in the MPI build,
`/repo/src/PhreeqcRM.cpp:7903-8031`, and of the same code in `RebalanceLoadPerCell`,
`:8880-9016`. Process `i` has one worker with the maps of reactants `w i`. Not modelled: mixes,
reactions and the unsaturated-zone storage, which is sent as a dump
(`/repo/src/PhreeqcRM.cpp:8033-8055`); failures of `DELETE`.
-/

namespace Verif.MpiMove

open Verif.OMap Verif.Serial Verif.Transfer

/-- `key << old << "#" << nnew`, `/repo/src/PhreeqcRM.cpp:7921-7922`. -/
def key (o n : Nat) : List Char := Nat.toDigits 10 o ++ '#' :: Nat.toDigits 10 n

/-- `transfer_pair`: sending process, receiving process and cells, by key. -/
abbrev Pairs := SMap (List Char) (Nat × Nat × List Int)

/-- The cell is added to the entry of the key, which is made if it does not exist,
`/repo/src/PhreeqcRM.cpp:7923-7931`. -/
def addCell (m : Pairs) (o n : Nat) (k : Int) : Pairs :=
  match find m (key o n) with
  | none => OMap.insert m (key o n) (o, n, [k])
  | some v => OMap.insert m (key o n) (v.1, v.2.1, v.2.2 ++ [k])

/-- The loop over cells, `/repo/src/PhreeqcRM.cpp:7907-7932`; the positions are as in
`Verif.Transfer.moveLoop`. -/
def pairLoop : Nat → Int → Nat → List Int → Nat → List Int → Pairs → Out Pairs
  | 0, _, _, _, _, _, m => .ok m
  | c + 1, k, i, os, j, ns, m => do
    let (i', os') ← advance k i os
    let (j', ns') ← advance k j ns
    pairLoop c (k + 1) i' os' j' ns' (if i' = j' then m else addCell m i' j' k)

/-- `DELETE; -cell` with the numbers of a list, `/repo/src/PhreeqcRM.cpp:8008-8031`, for the maps
modelled. -/
def deleteCells (m : Cells) (ks : List Int) : Cells where
  solutions := m.solutions.filter (fun e => e.1 ∉ ks)
  exchanges := m.exchanges.filter (fun e => e.1 ∉ ks)
  gases := m.gases.filter (fun e => e.1 ∉ ks)
  kinetics := m.kinetics.filter (fun e => e.1 ∉ ks)
  pps := m.pps.filter (fun e => e.1 ∉ ks)
  sss := m.sss.filter (fun e => e.1 ∉ ks)
  surfaces := m.surfaces.filter (fun e => e.1 ∉ ks)
  temperatures := m.temperatures.filter (fun e => e.1 ∉ ks)
  pressures := m.pressures.filter (fun e => e.1 ∉ ks)

/-- One entry of `transfer_pair`, `/repo/src/PhreeqcRM.cpp:7937-8031`: the sender packs its cells,
the receiver unpacks them, the sender deletes them. -/
def movePair (w : Nat → Cells) (v : Nat × Nat × List Int) : Out (Nat → Cells) :=
  let p := (w v.1).serialize false false (v.2.2.map (fun k => (k, k))) Dict.empty
  match (w v.2.1).deserialize (Dict.ofText p.1.text) p.2.1 p.2.2 with
  | .ok (c, _) =>
    let w1 := setAt w v.2.1 c
    .ok (setAt w1 v.1 (deleteCells (w1 v.1) v.2.2))
  | .throw => .throw
  | .ub => .ub

/-- The entries in the order of the map. -/
def moveAll : List (Nat × Nat × List Int) → (Nat → Cells) → Out (Nat → Cells)
  | [], w => .ok w
  | v :: vs, w => do
    let w' ← movePair w v
    moveAll vs w'

/-- All cells that change owner, from the ranges `old` to the ranges `new`. -/
def redistribute (count : Nat) (old new : List (Int × Int)) (w : Nat → Cells) :
    Out (Nat → Cells) := do
  let m ← pairLoop count 0 0 (old.map Prod.snd) 0 (new.map Prod.snd) []
  moveAll (m.map Prod.snd) w

end Verif.MpiMove
