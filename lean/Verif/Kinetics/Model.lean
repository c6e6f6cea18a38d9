import Mathlib.Data.Rat.Defs
import Mathlib.Algebra.Order.Ring.Rat
import Mathlib.Algebra.Order.Group.Unbundled.Abs
import Mathlib.Data.Fintype.Basic
import Mathlib.Data.List.FinRange
import Mathlib.Algebra.BigOperators.Group.List.Basic
import Mathlib.Algebra.Group.Pi.Basic

/-!
# Integration of kinetic rates

`rk_kinetics` (kinetics.cpp:294-1131) integrates the rates of the kinetic reactants of a cell over a time
step: the method of Runge, Kutta and Fehlberg with six evaluations and control of the step size, with early
ends when the rates do not change. The six evaluations need the chemistry of the cell, which is calculated
into working storage, except that the amounts of minerals and solid solutions of the cell are changed in
place (`add_pp_assemblage`, `add_ss_assemblage`, step.cpp:147-160).

The chemistry and the rates are any functions. Not modelled: exchangers and surfaces that are related to a
kinetic reactant (kinetics.cpp:202-264), the limiter of rates (kinetics.cpp:268-288, off by default,
mainsubs.cpp:100), mixing for transport, CVODE. Doubles are rational numbers, `pow` with negative fractional
exponents is any function.
-/

namespace Verif.Kinetics

/-- One number for each of `n` kinetic reactants. -/
abbrev V (n : Nat) := Fin n → ℚ

/-- What is stored for a cell: solution, exchanger, surface, gas; minerals; solid solutions. -/
structure Cell (σ π ρ : Type) where
  main : σ
  pp : π
  ss : ρ

/-- Outcome of `set_and_run_wrapper`, kinetics.cpp:1133-1492: a result, with minerals and solid solutions as they
were changed in place; an element with a negative amount, in which case minerals and solid solutions are as before
(step.cpp:182-207); no convergence, which stops the calculation. -/
inductive Run (κ π ρ : Type) where
  | ok (x : κ) (pp : π) (ss : ρ)
  | balance
  | fail

/-- The chemistry. `κ` is the result of a calculation, which is in working storage.

* `rates`: the rate programs of all reactants for the result of a calculation, the moles of the reactants,
  the time and the length of the step, kinetics.cpp:53-141; an error stops the calculation.
* `run`: the calculation with a reaction, given by the moles of each reactant that react.
* `save`: `saver`, mainsubs.cpp:929-1014. -/
structure Chem (n : Nat) (κ σ π ρ : Type) where
  rates : κ → V n → ℚ → ℚ → Option (V n)
  run : Cell σ π ρ → V n → Run κ π ρ
  save : κ → Cell σ π ρ

/-- The options of the kinetic reactants (cxxKinetics.h), the time step and the time at its start. `p4`, `p5` stand
for `pow(x, -0.25)` and `pow(x, -0.2)`. -/
structure Par (n : Nat) where
  kin : ℚ
  start : ℚ
  tol : V n
  divide : ℚ
  badMax : Nat
  p4 : ℚ → ℚ
  p5 : ℚ → ℚ

/-- A step that was taken: the number of evaluations it was made from (0: all rates are nothing), its length, the
moles that reacted, the moles of the reactants before and after. -/
structure Step (n : Nat) where
  evals : Nat
  h : ℚ
  moles : V n
  before : V n
  after : V n

/-- The variables of `rk_kinetics`. The last one is a record of the steps that were taken, for the statements. -/
structure St (n : Nat) (κ σ π ρ : Type) where
  cell : Cell σ π ρ
  cur : κ
  ppS : π
  ssS : ρ
  m : V n
  moles : V n
  mT : V n
  k1 : V n
  k2 : V n
  k3 : V n
  k4 : V n
  k5 : V n
  k6 : V n
  rk : Nat
  eq : Bool
  h : ℚ
  hOld : ℚ
  hSum : ℚ
  red : ℚ
  bad : Bool
  stepBad : Nat
  stepOk : Nat
  time : ℚ
  steps : List (Step n)

/-- How a piece of the loop ends: it goes on; `goto MOLES_TOO_LARGE`; the end of the turn; `goto EQUAL_RATE_OUT`; an
error that stops the calculation. -/
inductive Act (α : Type) where
  | go (s : α)
  | again (s : α)
  | turn (s : α)
  | quit (s : α)
  | err

/-- Sequence. -/
def Act.bind {α : Type} : Act α → (α → Act α) → Act α
  | .go s, f => f s
  | .again s, _ => .again s
  | .turn s, _ => .turn s
  | .quit s, _ => .quit s
  | .err, _ => .err

/-- The smallest amount, Phreeqc.cpp:494. -/
def minTotal : ℚ := 1 / 10 ^ 25

/-- The largest amount in one step (`moles_max`), kinetics.cpp:366 and 387-388. -/
def molesMax {n : Nat} (P : Par n) : ℚ := if P.divide < 1 then P.divide else 1 / 10

variable {n : Nat} {κ σ π ρ : Type}

/-- Not more than there is, `calc_final_kinetic_reaction`, kinetics.cpp:168-172. -/
def limit (mT v : V n) : V n := fun j => if mT j < v j then mT j else v j

/-- `calc_kinetic_reaction`, kinetics.cpp:53-141: the moles are added. -/
def rate (c : Chem n κ σ π ρ) (s : St n κ σ π ρ) : Act (St n κ σ π ρ) :=
  match c.rates s.cur s.m s.time s.h with
  | none => .err
  | some v => .go { s with moles := s.moles + v }

/-- `calc_final_kinetic_reaction` and `set_and_run_wrapper` between two evaluations, e.g. kinetics.cpp:564-570. -/
def react (c : Chem n κ σ π ρ) (s : St n κ σ π ρ) : Act (St n κ σ π ρ) :=
  match c.run s.cell (limit s.mT s.moles) with
  | .fail => .err
  | .balance => .again { s with moles := limit s.mT s.moles, red := 9 }
  | .ok x p q => .go { s with moles := limit s.mT s.moles, cur := x, cell := ⟨s.cell.main, p, q⟩ }

/-- Minerals and solid solutions as they were, e.g. kinetics.cpp:585-595. -/
def reset (s : St n κ σ π ρ) : St n κ σ π ρ := { s with cell := ⟨s.cell.main, s.ppS, s.ssS⟩ }

/-- An evaluation at the fraction `x` of the step, e.g. kinetics.cpp:564-595. -/
def trial (c : Chem n κ σ π ρ) (P : Par n) (x : ℚ) (s : St n κ σ π ρ) : Act (St n κ σ π ρ) :=
  (react c s).bind fun s =>
  (rate c { s with m := s.mT - s.moles, moles := 0, time := P.start + s.hSum + x * s.h }).bind fun s =>
  .go (reset s)

/-- The check of the amounts, e.g. kinetics.cpp:475-478. -/
def raise (mx : ℚ) (v : V n) (red : ℚ) : ℚ :=
  (List.finRange n).foldl (fun r j => if r * mx < |v j| then |v j| / mx else r) red

/-- The test for equal rates, e.g. kinetics.cpp:616-621. -/
def near (tol a b : V n) : Bool := decide (∀ j, |a j - b j| ≤ tol j)

/-- `if (moles_reduction > 1.0) goto MOLES_TOO_LARGE`. -/
def check (s : St n κ σ π ρ) : Act (St n κ σ π ρ) := if 1 < s.red then .again s else .go s

/-- The reduction of the step, kinetics.cpp:404-412. -/
def shrink (s : St n κ σ π ρ) : St n κ σ π ρ :=
  if 1 < s.red then
    { s with hOld := s.h, h := 7 / 10 * s.h / (1 + s.red), red := 1, eq := false, bad := true }
  else s

/-- The first evaluation, kinetics.cpp:413-485. After a step that was too large it is taken from the larger
step. -/
def first (c : Chem n κ σ π ρ) (P : Par n) (s : St n κ σ π ρ) : Act (St n κ σ π ρ) :=
  if s.bad then
    .go { s with
      k1 := fun j => s.k1 j * (s.h / s.hOld)
      moles := fun j => s.k1 j * (s.h / s.hOld) * (1 / 5)
      m := s.mT
      bad := false }
  else
    (rate c { s with
      ppS := s.cell.pp
      ssS := s.cell.ss
      moles := 0
      mT := s.m
      time := P.start + s.hSum }).bind fun s =>
    check { s with
      red := raise (molesMax P) s.moles s.red
      k1 := s.moles
      moles := fun j => s.moles j * (1 / 5) }

/-- The moles after a step; less than 10⁻³⁰ is nothing, e.g. kinetics.cpp:506-508. -/
def left (mT v : V n) : V n := fun j => if mT j - v j < 1 / 10 ^ 30 then 0 else mT j - v j

/-- A step with the moles `s.moles`, up to the test whether the rate at its end is that at its start, e.g.
kinetics.cpp:502-530 and 1005-1035. -/
def finish (c : Chem n κ σ π ρ) (P : Par n) (b : Nat) (s : St n κ σ π ρ) : Act (St n κ σ π ρ) :=
  let v := limit s.mT s.moles
  match c.run s.cell v with
  | .fail => .err
  | .balance => .again { s with m := left s.mT v, moles := 0, red := 9 }
  | .ok x p q =>
    (rate c { s with
      m := left s.mT v
      moles := 0
      cur := x
      cell := ⟨s.cell.main, p, q⟩
      steps := s.steps ++ [⟨b, s.h, v, s.mT, left s.mT v⟩] }).bind fun s =>
    .go { s with eq := s.eq && near P.tol s.k1 s.moles }

/-- `saver`. -/
def keep (c : Chem n κ σ π ρ) (s : St n κ σ π ρ) : St n κ σ π ρ := { s with cell := c.save s.cur }

/-- The step is forgotten if it is not kept. -/
def forget (l : List (Step n)) (s : St n κ σ π ρ) : St n κ σ π ρ := { s with steps := l }

/-- The early end of order one, kinetics.cpp:486-560. -/
def quick1 (c : Chem n κ σ π ρ) (P : Par n) (s : St n κ σ π ρ) : Act (St n κ σ π ρ) :=
  if s.rk = 1 ∧ s.eq = true then
    if ∀ j, |s.k1 j| ≤ minTotal then
      .quit (keep c { s with moles := s.k1, steps := s.steps ++ [⟨0, s.h, 0, s.mT, s.m⟩] })
    else
      (finish c P 1 { s with moles := s.k1 }).bind fun s' =>
      if s'.eq then .quit (keep c s')
      else .go (forget s.steps { s' with rk := 3, moles := fun j => 1 / 5 * s'.k1 j })
  else .go s

/-- The second evaluation is stored, kinetics.cpp:597-624. -/
def store2 (P : Par n) (s : St n κ σ π ρ) : Act (St n κ σ π ρ) :=
  check { s with
    red := raise (molesMax P) s.moles s.red
    k2 := s.moles
    moles := fun j => 3 / 40 * s.k1 j + 9 / 40 * s.moles j
    eq := s.eq && near P.tol s.k1 s.moles }

/-- The early end of order two, kinetics.cpp:625-684. The solid solutions are set back after they were saved
(kinetics.cpp:678-682). -/
def quick2 (c : Chem n κ σ π ρ) (P : Par n) (s : St n κ σ π ρ) : Act (St n κ σ π ρ) :=
  if s.rk = 2 ∧ s.eq = true then
    (finish c P 2 { s with moles := fun j => 3 / 10 * s.k1 j + 7 / 10 * s.k2 j }).bind fun s =>
    let s := keep c { s with rk := if s.eq then 1 else s.rk }
    .quit { s with cell := ⟨s.cell.main, s.cell.pp, s.ssS⟩ }
  else .go s

/-- The third evaluation is stored, kinetics.cpp:721-746. -/
def store3 (P : Par n) (s : St n κ σ π ρ) : Act (St n κ σ π ρ) :=
  check { s with
    red := raise (molesMax P) s.moles s.red
    k3 := s.moles
    moles := fun j => 3 / 10 * s.k1 j - 9 / 10 * s.k2 j + 12 / 10 * s.moles j
    eq := s.eq && near P.tol s.k1 s.moles }

/-- The early end of order three, kinetics.cpp:747-807. -/
def quick3 (c : Chem n κ σ π ρ) (P : Par n) (s : St n κ σ π ρ) : Act (St n κ σ π ρ) :=
  if s.rk = 3 ∧ s.eq = true then
    (finish c P 3 { s with moles := fun j => 1 / 2 * s.k1 j - 3 / 2 * s.k2 j + 2 * s.k3 j }).bind fun s =>
    .quit (keep c { s with rk := if s.eq then 1 else s.rk })
  else .go s

/-- The fourth evaluation is stored, kinetics.cpp:844-864. -/
def store4 (P : Par n) (s : St n κ σ π ρ) : Act (St n κ σ π ρ) :=
  check { s with
    red := raise (molesMax P) s.moles s.red
    k4 := s.moles
    moles := fun j => -11 / 54 * s.k1 j + 5 / 2 * s.k2 j + -70 / 27 * s.k3 j + 35 / 27 * s.moles j }

/-- The fifth evaluation is stored, kinetics.cpp:897-918. -/
def store5 (P : Par n) (s : St n κ σ π ρ) : Act (St n κ σ π ρ) :=
  check { s with
    red := raise (molesMax P) s.moles s.red
    k5 := s.moles
    moles := fun j => 1631 / 55296 * s.k1 j + 175 / 512 * s.k2 j + 575 / 13824 * s.k3 j +
      44275 / 110592 * s.k4 j + 253 / 4096 * s.moles j }

/-- The estimate of the error of one reactant, kinetics.cpp:966-973, with the constants of kinetics.cpp:316-323. -/
def errorOf (s : St n κ σ π ρ) (j : Fin n) : ℚ :=
  |(37 / 378 - 2825 / 27648) * s.k1 j + (250 / 621 - 18575 / 48384) * s.k3 j +
    (125 / 594 - 13525 / 55296) * s.k4 j + -277 / 14336 * s.k5 j + (512 / 1771 - 1 / 4) * s.k6 j|

/-- The largest error in units of the tolerance, kinetics.cpp:962-976. -/
def errorMax (P : Par n) (s : St n κ σ π ρ) : ℚ :=
  (List.finRange n).foldl (fun e j => if e < errorOf s j / P.tol j then errorOf s j / P.tol j else e) 0

/-- The next step, kinetics.cpp:1055-1070. -/
def grow (P : Par n) (e h hSum : ℚ) : ℚ :=
  if hSum < P.kin then
    let h' := if 577 / 10 ^ 6 < e then h * (7 / 10) * P.p5 e else h * 4
    if P.kin - hSum < h' then P.kin - hSum else h'
  else h

/-- The end of a turn, kinetics.cpp:951-1071. -/
def judge (c : Chem n κ σ π ρ) (P : Par n) (s : St n κ σ π ρ) : Act (St n κ σ π ρ) :=
  let s := { s with k6 := s.moles }
  let e := errorMax P s
  if 1 < e then
    .turn { s with
      hOld := s.h
      h := if s.stepOk = 0 then s.h * (7 / 10) / e else s.h * (7 / 10) * P.p4 e
      bad := true
      stepBad := s.stepBad + 1 }
  else
    (finish c P 6 { s with
      moles := fun j => 37 / 378 * s.k1 j + 250 / 621 * s.k3 j + 125 / 594 * s.k4 j + 512 / 1771 * s.k6 j }).bind
      fun s =>
    let s := keep c { s with rk := if s.eq ∧ s.rk < 6 then 1 else s.rk }
    .turn { s with
      stepOk := s.stepOk + 1
      hSum := s.hSum + s.h
      h := grow P e s.h (s.hSum + s.h) }

/-- From `MOLES_TOO_LARGE` to the end of the turn, kinetics.cpp:404-1071. -/
def attempt (c : Chem n κ σ π ρ) (P : Par n) (s : St n κ σ π ρ) : Act (St n κ σ π ρ) :=
  (first c P (shrink s)).bind fun s =>
  (quick1 c P s).bind fun s =>
  (trial c P (1 / 5) s).bind fun s => (store2 P s).bind fun s => (quick2 c P s).bind fun s =>
  (trial c P (3 / 10) s).bind fun s => (store3 P s).bind fun s => (quick3 c P s).bind fun s =>
  (trial c P (3 / 5) s).bind fun s => (store4 P s).bind fun s =>
  (trial c P 1 s).bind fun s => (store5 P s).bind fun s =>
  (trial c P (7 / 8) s).bind (judge c P)

/-- Outcome of the loop: the end; an error; not yet ended. -/
inductive Res (α : Type) where
  | ok (a : α)
  | err
  | more

/-- The loop, kinetics.cpp:393-1078. The number is the number of attempts left; `top` says whether the loop is at its
head or at `MOLES_TOO_LARGE`. -/
def drive (c : Chem n κ σ π ρ) (P : Par n) : Nat → Bool → St n κ σ π ρ → Res (St n κ σ π ρ)
  | 0, _, _ => .more
  | k + 1, top, s =>
    if top = true ∧ P.kin ≤ s.hSum then .ok s
    else if top = true ∧ P.badMax < s.stepBad then .err
    else match attempt c P s with
      | .go s => .ok s
      | .again s => drive c P k false s
      | .turn s => drive c P k true s
      | .quit s => .ok s
      | .err => .err

/-- The order of the method, kinetics.cpp:369-372. -/
def order (rk : Nat) : Nat := if rk < 1 then 1 else if 3 < rk then 6 else rk

/-- The start, kinetics.cpp:327-390, with the result of the last calculation in working storage. Whether an element
has a negative amount in the calculation at kinetics.cpp:344 is not looked at. -/
def begin (c : Chem n κ σ π ρ) (P : Par n) (rk : Nat) (m : V n) (old : κ) (cell : Cell σ π ρ) :
    Res (St n κ σ π ρ) :=
  let s (x : κ) : St n κ σ π ρ :=
    { cell := c.save x, cur := x, ppS := (c.save x).pp, ssS := (c.save x).ss, m := m, moles := 0, mT := m,
      k1 := 0, k2 := 0, k3 := 0, k4 := 0, k5 := 0, k6 := 0, rk := order rk,
      eq := decide (order rk ≠ 6) && decide (P.divide ≤ 1),
      h := if 1 < P.divide then P.kin / P.divide else P.kin,
      hOld := if 1 < P.divide then P.kin / P.divide else P.kin,
      hSum := 0, red := 1, bad := false, stepBad := 0, stepOk := 0, time := P.start, steps := [] }
  match c.run cell 0 with
  | .fail => .err
  | .balance => .ok (s old)
  | .ok x _ _ => .ok (s x)

/-- The last calculation, kinetics.cpp:1085-1089; its outcome is not looked at. -/
def last (c : Chem n κ σ π ρ) (s : St n κ σ π ρ) : Res (St n κ σ π ρ) :=
  match c.run s.cell 0 with
  | .fail => .err
  | .balance => .ok s
  | .ok x p q => .ok { s with cur := x, cell := ⟨s.cell.main, p, q⟩ }

/-- `rk_kinetics`, kinetics.cpp:294-1131, with at most `k` attempts. -/
def integrate (c : Chem n κ σ π ρ) (P : Par n) (k rk : Nat) (m : V n) (old : κ) (cell : Cell σ π ρ) :
    Res (St n κ σ π ρ) :=
  match begin c P rk m old cell with
  | .err => .err
  | .more => .more
  | .ok s =>
    match drive c P k true s with
    | .err => .err
    | .more => .more
    | .ok s => last c s

end Verif.Kinetics
