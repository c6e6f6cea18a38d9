import Verif.Reaction.Phases

/-!
# Reactions in terms of the master species of a solution

Not all master species take part in a calculation. `write_mass_action_eqn_x` (prep.cpp:2619-2699) replaces
those that do not by others; electrons that come in are replaced by the reaction of a redox couple, which
`rewrite_master_to_secondary` (prep.cpp:3084-3129) and `trxn_swap` (structures.cpp:2368-2421) make from the
reactions of two valence states.
-/

namespace Verif.Reaction

/-- The species that are replaced in a solution (`secondary->in == REWRITE`), each with its reaction
(`rxn_secondary`) and the name of its redox couple (`pe_rxn`), and the reactions of the couples (`pe_x`). -/
structure Sol where
  rewrite : Name → Option (Rxn × Name)
  pe : Name → Option Rxn

/-- The electron. -/
def electron : Name := ['e', '-']

/-- `rxn_find_coef`, structures.cpp:301-327: behind the first entry; zero if there is none. -/
def findCoef (r : Rxn) (n : Name) : ℚ :=
  match (r.toks.tail.takeWhile (·.sp)).find? (fun u => u.name == n) with
  | some u => u.coef
  | none => 0

/-- `equal(x, 0.0, TOL)`, global_structures.h:139. -/
def zeroish (x : ℚ) : Bool := decide (|x| ≤ 1 / 10 ^ 9)

/-- One turn of the inner loop, prep.cpp:2663-2692. A couple that is not in `pe_x` is put there without
entries, and the first entry of the empty vector does not exist. -/
def massTok (m : Sol) (u : Tok) (t : Trxn) : Res Trxn :=
  if u.sp = false then .ub
  else match m.rewrite u.name with
    | none => .ok t
    | some (r, pe) =>
      if r.toks = [] then .ub
      else
        (add r u.coef t).bind fun t =>
        if zeroish (findCoef r electron) then .ok t
        else match m.pe pe with
          | none => .ub
          | some p => add p (u.coef * findCoef r electron) t

/-- The inner loop over the entries that were there before it, prep.cpp:2662-2693. -/
def massToks (m : Sol) : List Tok → Trxn → Res Trxn
  | [], t => .ok t
  | u :: l, t => (massTok m u t).bind (massToks m l)

/-- The outer loop of `write_mass_action_eqn_x`, prep.cpp:2635-2696. The number is the number of turns
left. -/
def massLoop (sort : List Tok → List Tok) (m : Sol) : Nat → Trxn → Res Trxn
  | 0, _ => .err
  | n + 1, t =>
    (massToks m t.live.tail t).bind fun t1 =>
    (combine sort t1).bind fun t2 =>
    if t.live.tail.any (fun u => (m.rewrite u.name).isSome) then massLoop sort m n t2 else .ok t2

/-- The reaction of a species in a solution (`rxn_x`), prep.cpp:1124-1154, without the terms of surfaces. -/
def solutionRxn (sort : List Tok → List Tok) (m : Sol) (r : Rxn) (t : Trxn) : Res Trxn :=
  (add r 1 (clear t)).bind (massLoop sort m maxAdd)

/-- `rewrite_master_to_secondary`, prep.cpp:3108-3127, for two valence states with reactions `r1`, `r2` in
terms of the primary master species `p`. -/
def coupleRxn (sort : List Tok → List Tok) (r1 r2 : Rxn) (p : Name) (t : Trxn) : Res Trxn :=
  if r1.toks = [] ∨ r2.toks = [] then .ub
  else if zeroish (findCoef r1 p) || zeroish (findCoef r2 p) then .err
  else
    (add r1 1 (clear t)).bind fun t =>
    (add r2 (-(findCoef r1 p) / findCoef r2 p) t).bind (combine sort)

/-- `trxn_multiply`, structures.cpp:2251-2283. -/
def multiply (c : ℚ) (t : Trxn) : Trxn :=
  { t with live := t.live.map fun u => { u with coef := u.coef * c }, logk := t.logk * c }

/-- `trxn_swap`, structures.cpp:2368-2421. The first entry is kept behind the last one, where the vector
may end. A coefficient of zero gives infinite numbers. -/
def swap (e : Name) (t : Trxn) : Res Trxn :=
  match t.live.findIdx? (fun u => !u.sp || u.name == e) with
  | none => .err
  | some j =>
    match t.live[j]?, t.live[0]?, t.spare with
    | some u, some h, _ :: sp =>
      if u.sp = false then .ub
      else if u.coef = 0 then .ub
      else .ok (multiply (-1 / u.coef) { t with live := (t.live.set 0 u).set j h, spare := h :: sp })
    | _, _, _ => .ub

/-- Specification: the weights that the reactions of a solution obey. -/
def SolLaw (m : Sol) (w : Weight) (κ : ℚ) : Prop :=
  (∀ n r pe, m.rewrite n = some (r, pe) → Obeys w κ r) ∧ ∀ n r, m.pe n = some r → Obeys w κ r

end Verif.Reaction
