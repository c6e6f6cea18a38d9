import Verif.Equation.Combine

/-!
# How the program rewrites reactions

The data base gives an equation for every species and every phase. Before anything is calculated the
program replaces, in each of them, the species that are not master species by the right-hand sides of
their own equations. The work is done in one array, `trxn`, that is never cleared: `count_trxn` entries
are in use and the entries behind them are left over from earlier reactions. The functions are those of
structures.cpp:1999-2421, tidy.cpp:714-920, 1493-1508, 2352-2388 and prep.cpp:2617-2699, 3082-3129.

Simplifications. Numbers are exact. A pointer to a species is the name of the species; a token without
species (`s == NULL`) is a solid or a gas that is known by its name. The arrays `logk` and `dz` are
treated by the same statements in each entry, so one number stands for any entry (`dz` is not touched by
`trxn_add_phase`, which is not modelled). Text that is printed is left out. `qsort` is any function that
gives a sorted permutation; it appears as an argument.
-/

namespace Verif.Reaction

open Verif.Equation (strLe)

/-- Names of species, phases and elements. -/
abbrev Name := List Char

/-- One entry of `trxn.token` (global_structures.h:1110-1127) or of `CReaction::token`
(global_structures.h:213-226): the name, whether the pointer to the species is set, the coefficient. -/
structure Tok where
  name : Name
  sp : Bool
  coef : ℚ
  deriving DecidableEq, Repr

/-- `CReaction`, global_structures.h:227-245. The entry with two null pointers that ends the list is left
out; no entries stand for the empty vector of a reaction that was never set (structures.cpp:264-268). -/
structure Rxn where
  toks : List Tok
  logk : ℚ
  deriving DecidableEq, Repr

/-- `trxn` and `count_trxn`: the entries in use, the entries of the vector behind them, a constant. -/
structure Trxn where
  live : List Tok
  spare : List Tok
  logk : ℚ
  deriving DecidableEq, Repr

/-- Outcomes: a result; an error message that ends the run; undefined behaviour. -/
inductive Res (α : Type) where
  | ok (a : α)
  | err
  | ub
  deriving DecidableEq, Repr

/-- Sequence. -/
def Res.bind {α β : Type} : Res α → (α → Res β) → Res β
  | .ok a, f => f a
  | .err, _ => .err
  | .ub, _ => .ub

/-- `count_trxn = 0` (tidy.cpp:1495, 2357, 2376): the vector keeps its entries. -/
def clear (t : Trxn) : Trxn := { t with live := [], spare := t.live ++ t.spare }

/-- Entries are written at `count_trxn`, the vector grows if needed, structures.cpp:2035-2044. -/
def Trxn.push (t : Trxn) (l : List Tok) : Trxn :=
  { t with live := t.live ++ l, spare := t.spare.drop l.length }

/-- The factor, structures.cpp:2041 and 2100. -/
def scale (c : ℚ) (l : List Tok) : List Tok := l.map fun u => { u with coef := c * u.coef }

/-- The constant, structures.cpp:2021-2030 and 2073-2081: the first reaction is not multiplied. -/
def addK (t : Trxn) (r : Rxn) (c : ℚ) : ℚ := if t.live = [] then r.logk else t.logk + c * r.logk

/-- `trxn_add` without the last step, structures.cpp:2001-2044: it stops at the first entry without
species. The first entry of an empty vector does not exist. -/
def add (r : Rxn) (c : ℚ) (t : Trxn) : Res Trxn :=
  if r.toks = [] then .ub
  else .ok { t.push (scale c (r.toks.takeWhile (·.sp))) with logk := addK t r c }

/-- `trxn_add_phase` without the last step, structures.cpp:2051-2103. -/
def addPhase (r : Rxn) (c : ℚ) (t : Trxn) : Res Trxn :=
  if r.toks = [] then .ub
  else .ok { t.push (scale c r.toks) with logk := addK t r c }

/-- `equal(x, 0.0, 1e-5)`, structures.cpp:2134 and utilities.cpp:431-440. -/
def small (x : ℚ) : Bool := decide (|x| ≤ 1 / 10 ^ 5)

/-- The tests of structures.cpp:2131 and 2150-2151. -/
def same (t u : Tok) : Bool := t.sp == u.sp && t.name == u.name

/-- One turn of the loop of `trxn_combine`, structures.cpp:2127-2168. -/
def step (a : List Tok) (j k : Nat) : Option (List Tok × Nat) :=
  match a[k]?, a[j]? with
  | some t, some u =>
    if 0 < j ∧ same t u = true then
      some (a.set j { u with coef := u.coef + t.coef },
        if small (u.coef + t.coef) then j - 1 else j)
    else some (if k = j + 1 then a else a.set (j + 1) t, j + 1)
  | _, _ => none

/-- The loop, structures.cpp:2126-2168, with the number of turns left. -/
def loop : Nat → List Tok → Nat → Nat → Option (List Tok × Nat)
  | 0, a, j, _ => some (a, j)
  | n + 1, a, j, k =>
    match step a j k with
    | none => none
    | some q => loop n q.1 q.2 (k + 1)

/-- `trxn_combine`, structures.cpp:2111-2171, with `trxn_sort`, structures.cpp:2350-2364. `j` starts at
one whether or not there is a second entry. With `count_trxn` zero, `count_trxn - 1` is the largest
number and `qsort` runs over memory. -/
def combine (sort : List Tok → List Tok) (t : Trxn) : Res Trxn :=
  match t.live with
  | [] => .ub
  | h :: r =>
    match loop (r.length - 1) ((h :: sort r) ++ t.spare) 1 2 with
    | none => .ub
    | some (a, j) =>
      if a.length < j + 1 then .ub
      else .ok ⟨a.take (j + 1), a.drop (j + 1), t.logk⟩

/-- `trxn_reverse_k`, structures.cpp:2327-2346. -/
def reverseK (t : Trxn) : Trxn := { t with logk := -t.logk }

/-- `trxn_copy`, structures.cpp:2184-2221. -/
def copy (t : Trxn) : Rxn := ⟨t.live, t.logk⟩

/-- What the data base gives: the equation of a species (`s->rxn`), whether it is a primary or a
secondary master species, the equation of the solid or gas that a name stands for
(`phase_bsearch` with and without `(g)`, `(s)`, tidy.cpp:817-827). -/
structure Db where
  rxn : Name → Rxn
  primary : Name → Bool
  secondary : Name → Bool
  phase : Name → Option Rxn

/-- Neither primary nor secondary, tidy.cpp:759-760. -/
def Db.plain (db : Db) (n : Name) : Bool := !(db.secondary n) && !(db.primary n)

/-- The loops of `rewrite_eqn_to_secondary` (tidy.cpp:733-769) and `rewrite_eqn_to_primary`
(tidy.cpp:890-918): the first species that is not wanted, behind the first entry, is replaced. `nul` is
what happens at an entry without species. The first number is the number of turns left. -/
def subst (sort : List Tok → List Tok) (db : Db) (bad : Name → Bool) (nul : Res Trxn) :
    Nat → Trxn → Res Trxn
  | 0, _ => .err
  | n + 1, t =>
    match t.live.tail.find? (fun u => !u.sp || bad u.name) with
    | none => .ok t
    | some u =>
      if u.sp = false then nul
      else
        (add (db.rxn u.name) u.coef t).bind fun t =>
        (combine sort t).bind fun t => subst sort db bad nul n t

/-- `MAX_ADD_EQUATIONS`, global_structures.h:122. -/
def maxAdd : Nat := 20

/-- `rewrite_eqn_to_secondary`, tidy.cpp:716-772: an entry without species is an error. -/
def rewriteSecondary (sort : List Tok → List Tok) (db : Db) (t : Trxn) : Res Trxn :=
  (subst sort db db.plain .err maxAdd t).bind (combine sort)

/-- `rewrite_eqn_to_primary`, tidy.cpp:871-921: an entry without species is a null pointer that is
followed. -/
def rewritePrimary (sort : List Tok → List Tok) (db : Db) (t : Trxn) : Res Trxn :=
  (subst sort db (fun n => !(db.primary n)) .ub maxAdd t).bind (combine sort)

/-- The entry of a solid or gas is overwritten, tidy.cpp:845-848. -/
def replaceTok (h : Tok) (u : Tok) : Tok := ⟨h.name, h.sp, -u.coef * h.coef⟩

/-- The loop of `replace_solids_gases`, tidy.cpp:797-864. -/
def toSpecies (sort : List Tok → List Tok) (db : Db) : Nat → Trxn → Res Trxn
  | 0, _ => .err
  | n + 1, t =>
    match t.live.tail.findIdx? (fun u => !u.sp) with
    | none => .ok t
    | some i =>
      match t.live[i + 1]? with
      | none => .ub
      | some u =>
        match db.phase u.name with
        | none => .err
        | some r =>
          match r.toks with
          | [] => .ub
          | h :: _ =>
            (addPhase r u.coef t).bind fun t =>
            (combine sort { t with live := t.live.set (i + 1) (replaceTok h u) }).bind fun t =>
            toSpecies sort db n t

/-- `replace_solids_gases`, tidy.cpp:776-867. -/
def replaceSolids (sort : List Tok → List Tok) (db : Db) (t : Trxn) : Res Trxn :=
  (toSpecies sort db maxAdd t).bind (combine sort)

/-- `rxn_s` of a species, tidy.cpp:2374-2389. -/
def speciesRxn (sort : List Tok → List Tok) (db : Db) (n : Name) (t : Trxn) : Res Trxn :=
  if db.plain n = false then
    (add (db.rxn n) 1 (clear t)).bind fun t =>
    (add (db.rxn n) (-1) t).bind (combine sort)
  else (add (db.rxn n) 1 (clear t)).bind (rewriteSecondary sort db)

/-- `rxn_primary` of a master species, tidy.cpp:2355-2368. -/
def masterRxn (sort : List Tok → List Tok) (db : Db) (n : Name) (t : Trxn) : Res Trxn :=
  if db.primary n then
    (add (db.rxn n) 1 (clear t)).bind fun t =>
    (add (db.rxn n) (-1) t).bind (combine sort)
  else (add (db.rxn n) 1 (clear t)).bind (rewritePrimary sort db)

/-- `rxn_s` of a phase, tidy.cpp:1495-1508 (the first entry has the name of the phase from
tidy.cpp:1485-1486). -/
def phaseRxn (sort : List Tok → List Tok) (db : Db) (r : Rxn) (t : Trxn) : Res Trxn :=
  (addPhase r 1 (clear t)).bind fun t =>
  (replaceSolids sort db t).bind fun t =>
  (rewriteSecondary sort db (reverseK t)).bind fun t => .ok (reverseK t)

end Verif.Reaction
