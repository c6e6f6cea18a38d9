import Verif.CArrays.Model

/-!
# The same program in C++

Specification: a program that calls the class `PhreeqcRM` itself, with vectors in place of arrays.
-/

namespace Verif.CArrays.Spec

open Verif.Setters Verif.CArrays

/-- Modules and vectors. -/
structure World where
  mods  : Int → Option Mod
  vecs  : Nat → List ℚ
  ivecs : Nat → List Int

/-- What a program does with its vectors. -/
inductive VCall
  | set (id : Int) (a : Arr) (k : Nat)
  | mask (id : Int) (k : Nat)
  | get (id : Int) (g : Grid) (k : Nat)
  | own (k i : Nat) (x : ℚ)

/-- The same in C, with arrays. -/
def VCall.inC : VCall → Call
  | .set id a k => .set id a (some k)
  | .mask id k => .mask id (some k)
  | .get id g k => .get id g (some k)
  | .own k i x => .own k i x

/-- One step; a vector is given back only by a call that returns. -/
def call (w : World) : VCall → Out (World × Ret)
  | .set id a k =>
    match w.mods id with
    | none => .ok (w, .value .badInstance)
    | some m => do
      let r ← m.set a (w.vecs k)
      .ok ({ w with mods := fun j => if j = id then some r.1 else w.mods j }, r.2)
  | .mask id k =>
    match w.mods id with
    | none => .ok (w, .value .badInstance)
    | some m =>
      .ok ({ w with mods := fun j => if j = id then some (m.setMask (w.ivecs k)).1 else w.mods j },
        (m.setMask (w.ivecs k)).2)
  | .get id g k =>
    match w.mods id with
    | none => .ok (w, .value .badInstance)
    | some m => do
      let r ← m.get g
      .ok ({ w with
          mods := fun j => if j = id then some r.1 else w.mods j
          vecs := fun j => match r.2.2 with
            | .value _ => if j = k then r.2.1 else w.vecs j
            | _ => w.vecs j }, r.2.2)
  | .own k i x =>
    if i < (w.vecs k).length then
      .ok ({ w with vecs := fun j => if j = k then (w.vecs k).set i x else w.vecs j }, .value .ok)
    else .ub

/-- A program: it ends with an exception or the end of the process. -/
def calls (w : World) : List VCall → Out (World × List Ret)
  | [] => .ok (w, [])
  | c :: cs => do
    let r ← call w c
    match r.2 with
    | .value _ => do
      let s ← calls r.1 cs
      .ok (s.1, r.2 :: s.2)
    | _ => .ok (r.1, [r.2])

/-- The arrays of a C program as vectors of `N` values. -/
def view (N : Nat) (p : Proc) : World where
  mods := p.mods
  vecs := fun k => (p.heap k).take N
  ivecs := fun k => (p.iheap k).take N

/-- The modules are for grids of `N` cells and the arrays are large enough. -/
structure Fits (N : Nat) (p : Proc) : Prop where
  mods  : ∀ id m, p.mods id = some m → m.rm.map.nxyz = N ∧ (m.rm.arr .porosity).length = N
  heap  : ∀ k, N ≤ (p.heap k).length
  iheap : ∀ k, N ≤ (p.iheap k).length

/-- Entries beyond the first `N` are as before. -/
def Beyond (N : Nat) (p p' : Proc) : Prop :=
  p'.iheap = p.iheap ∧ ∀ k, (p'.heap k).drop N = (p.heap k).drop N

/-- The outcome in C fits the outcome in C++; nothing is said about programs with undefined behaviour in C++. -/
def Same {α : Type} (N : Nat) (p : Proc) (c : Out (Proc × α)) : Out (World × α) → Prop
  | .ok (w, r) => ∃ p', c = .ok (p', r) ∧ view N p' = w ∧ Fits N p' ∧ Beyond N p p'
  | .throw => c = .throw
  | .ub => True

end Verif.CArrays.Spec
