import Verif.Base
import Verif.OMap.Basic
import Verif.OMap.Set

/-!
# Finding components

`PhreeqcRM::FindComponents` (`/repo/src/PhreeqcRM.cpp:2824-3262`), `SetComponentH2O`
(`:11046-11070`) and the list of solid solutions that IPhreeqc prepares
(`Phreeqc::list_SolidSolutions`).
-/

namespace Verif.Components

open Verif.OMap

/-- Names of elements, phases, ... -/
abbrev Name := List Char

/-- What the InitialPhreeqc worker offers: the elements of all definitions
(`GetComponentCount`, `GetComponent`), the name lists, and the phases (`phases[i]->in`) of the
first trial solution. `surfSp t` and `exSp e` are the surface and exchange species in `s_x` after
the trial run for a surface type or an exchanger. `run1`, `run2`, `surfOk` and `exOk` say which
worker runs succeed: the first trial solution, the second one and those for a surface type and
an exchanger. (The `DELETE` runs are assumed to succeed.) -/
structure Source where
  elements  : List Name
  surfTypes : List Name
  surfNames : List Name
  exNames   : List Name
  eqPhases  : List Name
  gases     : List Name
  kinetics  : List Name
  ssComps   : List Name
  ssNames   : List Name
  siNames   : List Name
  surfSp    : Name → List Name
  exSp      : Name → List Name
  run1      : Bool
  run2      : Bool
  surfOk    : Name → Bool
  exOk      : Name → Bool

/-- The part of the module's state that `FindComponents` keeps, without aqueous species,
`ElementRedoxSet` and formula weights. -/
structure State where
  h2o         : Bool
  comps       : List Name
  siNames     : List Name
  surfSpecies : List Name
  surfTypes   : List Name
  surfNames   : List Name
  exSpecies   : List Name
  exNames     : List Name
  eqPhases    : List Name
  gases       : List Name
  kinetics    : List Name
  ssComps     : List Name
  ssNames     : List Name
deriving DecidableEq

/-- A new module. -/
def State.new : State := ⟨true, [], [], [], [], [], [], [], [], [], [], [], []⟩

def nH2O : Name := ['H', '2', 'O']
def nH : Name := ['H']
def nO : Name := ['O']
def nCharge : Name := ['C', 'h', 'a', 'r', 'g', 'e']

/-- The components that come first, `/repo/src/PhreeqcRM.cpp:2878-2883`. -/
def fixedNames (h2o : Bool) : List Name :=
  if h2o then [nH2O, nH, nO, nCharge] else [nH, nO, nCharge]

/-- The component list, `/repo/src/PhreeqcRM.cpp:2848-2887`. -/
def newComps (s : State) (elements : List Name) : List Name :=
  let fixed := if s.h2o then 4 else 3
  let set := OSet.insAll (OSet.insAll [] (s.comps.drop fixed)) elements
  fixedNames s.h2o ++ set

/-- A list kept as a set, for example `/repo/src/PhreeqcRM.cpp:3147-3170`. -/
def newList (old new : List Name) : List Name := OSet.insAll (OSet.insAll [] old) new

/-- `v[i]` and `*it`: reading past the end is undefined behaviour. -/
def at? (l : List Name) (i : Nat) : Out Name :=
  match l[i]? with
  | some a => .ok a
  | none => .ub

/-- Old solid-solution components and names, `/repo/src/PhreeqcRM.cpp:3224-3233`. -/
def ssOld (s : State) : Out (List Name × SMap Name Name) :=
  (List.range s.ssComps.length).foldlM (fun (p : List Name × SMap Name Name) (i : Nat) => do
    let c ← at? s.ssComps i
    let n ← at? s.ssNames i
    .ok (OSet.ins p.1 c, insert p.2 c n)) ([], [])

/-- New ones, `/repo/src/PhreeqcRM.cpp:3234-3244`. The iterator over the names moves on only
when the component is new. -/
def ssNew (comps names : List Name) (p : List Name × SMap Name Name) :
    Out (List Name × SMap Name Name) := do
  let r ← comps.foldlM (fun (q : (List Name × SMap Name Name) × Nat) c =>
    if c ∈ q.1.1 then .ok q
    else do
      let n ← at? names q.2
      .ok ((OSet.ins q.1.1 c, insert q.1.2 c n), q.2 + 1)) (p, 0)
  .ok r.1

/-- `ssnames_map[c]`, which inserts an empty name when there is none. -/
def nameOf (m : SMap Name Name) (c : Name) : Name :=
  match find m c with
  | some n => n
  | none => []

/-- Surface types and the name of the surface of each, `/repo/src/PhreeqcRM.cpp:2984-3007`. The
worker's lists are filled in parallel. -/
def surfSets (s : State) (w : Source) : Out (List Name × SMap Name Name) := do
  let p ← (List.range s.surfSpecies.length).foldlM
    (fun (p : List Name × SMap Name Name) (i : Nat) => do
      let t ← at? s.surfTypes i
      let n ← at? s.surfNames i
      .ok (OSet.ins p.1 t, insert p.2 t n)) ([], [])
  (List.range w.surfTypes.length).foldlM
    (fun (p : List Name × SMap Name Name) (i : Nat) => do
      let t ← at? w.surfTypes i
      let n ← at? w.surfNames i
      .ok (OSet.ins p.1 t, insert p.2 t n)) p

/-- Filling the surface vectors, `/repo/src/PhreeqcRM.cpp:3059-3095`: the state and whether all
runs succeeded. -/
def surfLoop (w : Source) (m : SMap Name Name) : List Name → State → State × Bool
  | [], s => (s, true)
  | t :: ts, s =>
    if w.surfOk t then
      surfLoop w m ts { s with
        surfSpecies := s.surfSpecies ++ w.surfSp t
        surfTypes := s.surfTypes ++ (w.surfSp t).map (fun _ => t)
        surfNames := s.surfNames ++ (w.surfSp t).map (fun _ => nameOf m t) }
    else (s, false)

/-- Filling the exchange vectors, `/repo/src/PhreeqcRM.cpp:3100-3134`. -/
def exLoop (w : Source) : List Name → State → State × Bool
  | [], s => (s, true)
  | e :: es, s =>
    if w.exOk e then
      exLoop w es { s with
        exSpecies := s.exSpecies ++ w.exSp e
        exNames := s.exNames ++ (w.exSp e).map (fun _ => e) }
    else (s, false)

/-- The last part, `/repo/src/PhreeqcRM.cpp:3146-3254`. -/
def lastLists (s : State) (w : Source) : Out State := do
  let p0 ← ssOld s
  let p ← ssNew w.ssComps w.ssNames p0
  .ok { s with
    eqPhases := newList s.eqPhases w.eqPhases
    gases := newList s.gases w.gases
    kinetics := newList s.kinetics w.kinetics
    ssComps := p.1
    ssNames := p.1.map (nameOf p.2) }

/-- Surface and exchange lists, `/repo/src/PhreeqcRM.cpp:2981-3145`: the state and whether all
runs succeeded. -/
def surfaceLists (s : State) (w : Source) : Out (State × Bool) := do
  let p ← surfSets s w
  let exSet := newList s.exNames w.exNames
  if w.run2 = false ∧ (exSet ≠ [] ∨ p.1 ≠ []) then .ok (s, false)
  else
    let r := surfLoop w p.2 p.1 { s with surfSpecies := [], surfTypes := [], surfNames := [] }
    if r.2 = false then .ok r
    else .ok (exLoop w exSet { r.1 with exSpecies := [], exNames := [] })

/-- `FindComponents`, `/repo/src/PhreeqcRM.cpp:2824-3262`: the return value (component count or
`IRM_FAIL`) and the new state. A failing worker run throws and leaves everything after it
undone. -/
def findComponents (s : State) (w : Source) : Out (Int × State) := do
  let s1 := { s with comps := newComps s w.elements }
  if w.run1 = false then .ok (IRM.fail.toInt, s1)
  else do
    let s2 := { s1 with siNames := s1.siNames ++ w.siNames }
    let r ← surfaceLists s2 w
    if r.2 = false then .ok (IRM.fail.toInt, r.1)
    else do
      let s3 ← lastLists r.1 w
      .ok ((s3.comps.length : Int), s3)

/-- `SetComponentH2O`, `/repo/src/PhreeqcRM.cpp:11046-11070`. -/
def setComponentH2O (s : State) (tf : Bool) : State := { s with h2o := tf }

/-! ## `Phreeqc::list_SolidSolutions`,
`/repo/src/IPhreeqcPhast/IPhreeqc/phreeqcpp/Phreeqc.cpp:286-361` -/

/-- `locate any common component`, lines 325-334. -/
def common (a b : List Name) : Bool := b.any (fun x => decide (x ∈ a))

/-- The loop over `j` for a fixed `i`, lines 323-345: the first later set with a common
component is merged into this one and cleared. -/
def mergeInto (a : List Name) : List (List Name) → Option (List Name × List (List Name))
  | [] => none
  | b :: bs =>
    if common a b then some (OSet.insAll a b, [] :: bs)
    else match mergeInto a bs with
      | some r => some (r.1, b :: r.2)
      | none => none

/-- One pass of the `while` loop, lines 320-347; `none` when nothing was merged. -/
def mergeOnce : List (List Name) → Option (List (List Name))
  | [] => none
  | a :: rest =>
    match mergeInto a rest with
    | some r => some (r.1 :: r.2)
    | none =>
      match mergeOnce rest with
      | some r => some (a :: r)
      | none => none

/-- Number of sets that are not empty; it decreases with each merge. -/
def nonEmpty (sets : List (List Name)) : Nat := (sets.filter (fun s => !s.isEmpty)).length

theorem nonEmpty_cons (a : List Name) (l : List (List Name)) :
    nonEmpty (a :: l) = (if a.isEmpty then 0 else 1) + nonEmpty l := by
  unfold nonEmpty
  cases h : a.isEmpty <;> simp [h]; omega

theorem mergeInto_nonEmpty {a : List Name} {bs : List (List Name)} {r}
    (h : mergeInto a bs = some r) :
    nonEmpty (r.1 :: r.2) < nonEmpty (a :: bs) := by
  induction bs generalizing r with
  | nil => simp [mergeInto] at h
  | cons b bs ih =>
    simp only [mergeInto] at h
    split at h
    · rename_i hc
      simp only [Option.some.injEq] at h
      subst h
      unfold common at hc
      rw [List.any_eq_true] at hc
      obtain ⟨x, hx, hxa⟩ := hc
      have hb : b ≠ [] := by intro e; rw [e] at hx; simp at hx
      have ha : a ≠ [] := by
        intro e
        rw [e] at hxa
        simp at hxa
      have e1 : b.isEmpty = false := by simpa using hb
      have e2 : a.isEmpty = false := by simpa using ha
      simp only [nonEmpty_cons, e1, e2, List.isEmpty_nil, if_true]
      split <;> simp <;> omega
    · split at h
      · rename_i r' hr'
        simp only [Option.some.injEq] at h
        subst h
        have := ih hr'
        simp only [nonEmpty_cons] at this ⊢
        omega
      · simp at h

theorem mergeOnce_nonEmpty {sets r : List (List Name)} (h : mergeOnce sets = some r) :
    nonEmpty r < nonEmpty sets := by
  induction sets generalizing r with
  | nil => simp [mergeOnce] at h
  | cons a rest ih =>
    simp only [mergeOnce] at h
    split at h
    · rename_i q hq
      simp only [Option.some.injEq] at h
      subst h
      exact mergeInto_nonEmpty hq
    · split at h
      · rename_i q hq
        simp only [Option.some.injEq] at h
        subst h
        have := ih hq
        simp only [nonEmpty_cons]
        omega
      · simp at h

/-- The `while` loop, lines 316-348. -/
def mergeAll (sets : List (List Name)) : List (List Name) :=
  match _h : mergeOnce sets with
  | none => sets
  | some r => mergeAll r
termination_by nonEmpty sets
decreasing_by exact mergeOnce_nonEmpty _h

/-- The two lists, lines 349-360. `sss` are the solid solutions of all assemblages, with the
set of their components. -/
def listSolidSolutions (sss : List (Name × List Name)) : List Name × List Name :=
  let sets := mergeAll (sss.map Prod.snd)
  let pairs := ((sss.map Prod.fst).zip sets).flatMap (fun p => p.2.map (fun c => (c, p.1)))
  (pairs.map Prod.fst, pairs.map Prod.snd)

end Verif.Components
