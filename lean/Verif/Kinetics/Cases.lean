import Verif.Kinetics.Props

/-!
# Cases and violations for the integration of kinetic rates
-/

namespace Verif.Kinetics

open Spec

/-- Whether there is a result with this property. -/
def Res.holds {α : Type} (r : Res α) (p : α → Prop) [DecidablePred p] : Bool :=
  match r with
  | .ok a => decide (p a)
  | _ => false

theorem Res.of_holds {α : Type} {r : Res α} {p : α → Prop} [DecidablePred p] (h : r.holds p = true) :
    ∃ a, r = .ok a ∧ p a := by
  cases r with
  | ok a => exact ⟨a, rfl, of_decide_eq_true h⟩
  | err => cases h
  | more => cases h

/-- Options: one reactant, the tolerance, the first step as a part. -/
def par (kin tol divide : ℚ) : Par 1 := ⟨kin, 0, fun _ => tol, divide, 500, fun _ => 1 / 2, fun _ => 1⟩

theorem par_fair {kin tol divide : ℚ} (h1 : 0 < kin) (h2 : 0 < tol) (h3 : 0 < divide) : Fair (par kin tol divide) :=
  ⟨h1, h3, fun _ => h2, fun _ _ => by show (0 : ℚ) < 1 / 2 ∧ (1 / 2 : ℚ) ≤ 1; norm_num, fun _ _ => by
    show (0 : ℚ) < 1; norm_num⟩

/-- A tank: what reacts is in solution afterwards. -/
def tank (r : V 1 → ℚ → ℚ) : Chem 1 ℚ ℚ Unit Unit where
  rates := fun _ m t h => some (fun _ => r m t * h)
  run := fun B v => .ok (B.main + v 0) () ()
  save := fun x => ⟨x, (), ()⟩

theorem tank_kept (r : V 1 → ℚ → ℚ) : Kept (tank r) Cell.main id (fun _ => 1) where
  run := fun B v x p q h => by
    cases h
    simp
  save := fun _ => rfl

theorem tank_linear (r : V 1 → ℚ → ℚ) : Linear (tank r) := fun x m t h a v _ _ hv => by
  cases hv
  simp only [tank, Option.some.injEq]
  funext j
  ring

/-- First-order decay of one mole in two full steps. -/
example : ∃ s, integrate (tank fun m _ => m 0) (par (1 / 10) (1 / 100) 2) 5 3 (fun _ => 1) 0 ⟨0, (), ()⟩ = .ok s ∧
    s.steps.length = 2 ∧ s.m 0 < 1 :=
  Res.of_holds (by decide +kernel)

/-- The same with order three and two: an early end. -/
example : ∃ s, integrate (tank fun m _ => m 0) (par (1 / 20) (1 / 100) 1) 5 3 (fun _ => 1) 0 ⟨0, (), ()⟩ = .ok s ∧
    s.steps.map Step.evals = [3] ∧ s.m 0 < 1 :=
  Res.of_holds (by decide +kernel)

/-- A step that is turned down first. -/
example : ∃ s, integrate (tank fun m _ => m 0) (par (1 / 8) (1 / 100) 1) 5 6 (fun _ => 1) 0 ⟨0, (), ()⟩ = .ok s ∧
    1 < s.steps.length ∧ s.m 0 < 1 :=
  Res.of_holds (by decide +kernel)

/-- `time_covered`, `amounts_right`, `mass_kept_partial` and `steps_of_method_partial` for this case: the two steps are
1/8 in all, and what the tank has gained the reactant has lost. -/
theorem decay_case (s : St 1 ℚ ℚ Unit Unit)
    (hs : integrate (tank fun m _ => m 0) (par (1 / 8) (1 / 100) 1) 5 6 (fun _ => 1) 0 ⟨0, (), ()⟩ = .ok s) :
    span s.steps = 1 / 8 ∧
    |(s.cur + ∑ j : Fin 1, 1 * s.m j) - (0 + ∑ _j : Fin 1, 1 * 1)| ≤
      s.steps.length * ((∑ _j : Fin 1, |(1 : ℚ)|) * (1 / 10 ^ 30)) ∧
    ∃ x y, startOf (tank fun m _ => m 0) 0 ⟨0, (), ()⟩ = some x ∧
      Path (tank fun m _ => m 0) (MayKarp (tank fun m _ => m 0) (fun _ => 1 / 100)) 0 x (fun _ => 1) s.steps y s.m := by
  have hP : Fair (par (1 / 8) (1 / 100) 1) := par_fair (by norm_num) (by norm_num) (by norm_num)
  have h2 := mass_kept_partial hP (tank_kept fun m _ => m 0) (fun h => by cases h) (.inl (by decide)) hs
  exact ⟨(time_covered hP hs).1, h2, steps_of_method_partial hP (tank_linear _) (by decide) hs⟩

/-- `constant_rates` with order one and with the full method. -/
example (rk : Nat) (s : St 1 ℚ ℚ Unit Unit)
    (h : integrate (tank fun _ _ => 1 / 30) (par 1 (1 / 10 ^ 8) 1) 5 rk (fun _ => 1) 0 ⟨0, (), ()⟩ = .ok s) :
    s.m 0 = 1 - 1 / 30 * 1 := by
  rcases constant_rates (par_fair (by norm_num) (by norm_num) (by norm_num)) (r := fun _ => 1 / 30)
    (fun _ _ _ _ => rfl) (fun _ => ⟨by norm_num, by show _ ≤ (1 : ℚ) - 1 / 30 * 1; norm_num⟩) h with h | ⟨-, h⟩
  · exact h 0
  · have := h 0
    simp only [par] at this
    rw [abs_of_pos (by norm_num)] at this
    norm_num at this

/-- There is such a result with each order. -/
example : ∀ rk ∈ [1, 2, 3, 4], ∃ s, integrate (tank fun _ _ => 1 / 30) (par 1 (1 / 10 ^ 8) 1) 5 rk (fun _ => 1) 0
    ⟨0, (), ()⟩ = .ok s ∧ s.m 0 < 1 := by
  intro rk hrk
  simp only [List.mem_cons, List.not_mem_nil, or_false] at hrk
  rcases hrk with rfl | rfl | rfl | rfl <;> exact Res.of_holds (by decide +kernel)

/-- Minerals whose amount is changed in place; the rate depends on it. -/
def rock : Chem 1 ℚ Unit ℚ Unit where
  rates := fun x _ _ h => some (fun _ => (1 / 50 + x) * h)
  run := fun B v => .ok (B.pp + v 0) (B.pp + v 0) ()
  save := fun x => ⟨(), x, ()⟩


theorem rock_linear : Linear rock := fun x m t h a v _ _ hv => by
  cases hv
  simp only [rock, Option.some.injEq]
  funext j
  ring

/-- C178 is false for order one: when the rate at the end of the step is not that at its start, the minerals are not set
back before the second evaluation (kinetics.cpp:551-565). The step that is taken then is not the step of the method,
which is taken with order six. -/
theorem order_one_trial : ∃ s s6 : St 1 ℚ Unit ℚ Unit,
    integrate rock (par (1 / 2) (1 / 250) 1) 5 1 (fun _ => 1) 0 ⟨(), 0, ()⟩ = .ok s ∧
    integrate rock (par (1 / 2) (1 / 250) 1) 5 6 (fun _ => 1) 0 ⟨(), 0, ()⟩ = .ok s6 ∧
    s.steps.map Step.evals = [6] ∧ s6.steps.map Step.evals = [6] ∧
    s.steps.map Step.h = s6.steps.map Step.h ∧ s.m 0 = 1 - 49829 / 3840000 ∧ s6.m 0 = 1 - 99643 / 7680000 := by
  have h1 : ∃ s, integrate rock (par (1 / 2) (1 / 250) 1) 5 1 (fun _ => 1) 0 ⟨(), 0, ()⟩ = .ok s ∧
      (s.steps.map Step.evals = [6] ∧ s.steps.map Step.h = [1 / 2] ∧ s.m 0 = 1 - 49829 / 3840000) :=
    Res.of_holds (by decide +kernel)
  have h6 : ∃ s, integrate rock (par (1 / 2) (1 / 250) 1) 5 6 (fun _ => 1) 0 ⟨(), 0, ()⟩ = .ok s ∧
      (s.steps.map Step.evals = [6] ∧ s.steps.map Step.h = [1 / 2] ∧ s.m 0 = 1 - 99643 / 7680000) :=
    Res.of_holds (by decide +kernel)
  obtain ⟨s, e, a, b, d⟩ := h1
  obtain ⟨s6, e6, a6, b6, d6⟩ := h6
  exact ⟨s, s6, e, e6, a, a6, by rw [b, b6], d, d6⟩

/-- A solid solution takes up what reacts. -/
def solid : Chem 1 ℚ Unit Unit ℚ where
  rates := fun _ _ _ h => some (fun _ => 1 / 20 * h)
  run := fun B v => .ok (B.ss + v 0) () (B.ss + v 0)
  save := fun x => ⟨(), (), x⟩

theorem solid_kept : Kept solid Cell.ss id (fun _ => 1) where
  run := fun B v x p q h => by
    cases h
    simp
  save := fun _ => rfl

/-- C176 is false for order two with solid solutions: they are set back after the step was saved (kinetics.cpp:678-682).
The reactant has lost 1/20 mole, which is nowhere. -/
theorem order_two_solids : ∃ s, integrate solid (par 1 (1 / 100) 1) 5 2 (fun _ => 1) 0 ⟨(), (), 0⟩ = .ok s ∧
    (s.cur = 0 ∧ s.cell.ss = 0 ∧ s.m 0 = 19 / 20) :=
  Res.of_holds (by decide +kernel)

/-- With order three it is in the solid solution. -/
example : ∃ s, integrate solid (par 1 (1 / 100) 1) 5 3 (fun _ => 1) 0 ⟨(), (), 0⟩ = .ok s ∧
    (s.cur = 1 / 20 ∧ s.m 0 = 19 / 20) :=
  Res.of_holds (by decide +kernel)

/-- No negative amount in solution. -/
def lake : Chem 1 ℚ ℚ Unit Unit where
  rates := fun _ _ _ _ => some (fun _ => 0)
  run := fun B v => if B.main + v 0 < 0 then .balance else .ok (B.main + v 0) () ()
  save := fun x => ⟨x, (), ()⟩

theorem lake_kept : Kept lake Cell.main id (fun _ => 1) where
  run := fun B v x p q h => by
    simp only [lake] at h
    split_ifs at h
    cases h
    simp
  save := fun _ => rfl

/-- C176 is false if an element has a negative amount in the first calculation: this is not looked at (kinetics.cpp:344),
and what an earlier calculation, here one with 5 moles, left in working storage is saved into the cell. -/
theorem stale_result : ∃ s, integrate lake (par 1 (1 / 100) 1) 5 3 (fun _ => 1) 5 ⟨-1, (), ()⟩ = .ok s ∧
    (s.cur = 5 ∧ s.cell.main = 5 ∧ s.m 0 = 1) :=
  Res.of_holds (by decide +kernel)

/-- A cell in which nothing can react. -/
def barren : Chem 1 Unit Unit Unit Unit where
  rates := fun _ _ _ h => some (fun _ => 1 / 100 * h)
  run := fun _ v => if v 0 = 0 then .ok () () () else .balance
  save := fun _ => ⟨(), (), ()⟩

/-- The states of `barren` in which a step was turned down. -/
def Stuck (s : St 1 Unit Unit Unit Unit) : Prop := s.red = 9 ∧ 0 < s.h ∧ 0 < s.k1 0 ∧ 0 < s.mT 0

theorem barren_react {s : St 1 Unit Unit Unit Unit} (h : 0 < s.moles 0) (hm : 0 < s.mT 0) :
    barren.run s.cell (limit s.mT s.moles) = .balance := by
  have : 0 < limit s.mT s.moles 0 := by
    simp only [limit]
    split_ifs
    · exact hm
    · exact h
  simp only [barren, if_neg (ne_of_gt this)]

theorem barren_trial {P : Par 1} {f : ℚ} {s : St 1 Unit Unit Unit Unit} (h : 0 < s.moles 0) (hm : 0 < s.mT 0) :
    trial barren P f s = .again { s with moles := limit s.mT s.moles, red := 9 } := by
  simp only [trial, react, barren_react h hm, Act.bind]

theorem stuck_attempt {P : Par 1} {s : St 1 Unit Unit Unit Unit} (h : Stuck s) :
    ∃ s', attempt barren P s = .again s' ∧ Stuck s' := by
  obtain ⟨h1, h2, h3, h4⟩ := h
  have hr : (1 : ℚ) < s.red := by rw [h1]; norm_num
  have hh : 0 < 7 / 10 * s.h / (1 + s.red) := by apply div_pos <;> linarith
  have hk : 0 < s.k1 0 * (7 / 10 * s.h / (1 + s.red) / s.h) := mul_pos h3 (div_pos hh h2)
  have hk' : 0 < s.k1 0 * (7 / 10 * s.h / (1 + s.red) / s.h) * (1 / 5) := by linarith
  simp only [attempt, shrink, if_pos hr, first, if_true, Act.bind, quick1, Bool.false_eq_true, and_false, if_false]
  rw [barren_trial]
  · exact ⟨_, rfl, rfl, hh, hk, h4⟩
  · exact hk'
  · exact h4

theorem stuck_drive (P : Par 1) (k : Nat) (s : St 1 Unit Unit Unit Unit) (h : Stuck s) :
    drive barren P k false s = .more := by
  induction k generalizing s with
  | zero => rfl
  | succ k ih =>
    obtain ⟨s', e, hs'⟩ := stuck_attempt (P := P) h
    simp only [drive, Bool.false_eq_true, false_and, if_false, e]
    exact ih s' hs'

/-- Options with a limit for bad steps. -/
def limited (badMax : Nat) : Par 1 := ⟨1, 0, fun _ => 1 / 100, 1, badMax, fun _ => 1 / 2, fun _ => 1⟩

theorem limited_fair (badMax : Nat) : Fair (limited badMax) :=
  ⟨by show (0 : ℚ) < 1; norm_num, by show (0 : ℚ) < 1; norm_num, fun _ => by show (0 : ℚ) < 1 / 100; norm_num,
    fun _ _ => by show (0 : ℚ) < 1 / 2 ∧ (1 / 2 : ℚ) ≤ 1; norm_num, fun _ _ => by show (0 : ℚ) < 1; norm_num⟩

/-- The start with `barren`. -/
def barrenStart (rk : Nat) (eq : Bool) : St 1 Unit Unit Unit Unit :=
  ⟨⟨(), (), ()⟩, (), (), (), fun _ => 1, 0, fun _ => 1, 0, 0, 0, 0, 0, 0, rk, eq, 1, 1, 0, 1, false, 0, 0, 0, []⟩

theorem raise_small (v : V 1) (hv : |v 0| ≤ 1 / 10) : raise (1 / 10) v 1 = 1 := by
  simp only [raise, List.finRange_succ, List.finRange_zero, List.map_nil, List.foldl_cons, List.foldl_nil]
  rw [if_neg (by rw [one_mul]; exact not_lt.2 hv)]

/-- The rate of `barren`. -/
def barrenRate : V 1 := 0 + fun _ => 1 / 100 * (1 : ℚ)

theorem barrenRate_eq : barrenRate 0 = 1 / 100 := by
  simp [barrenRate]

theorem barren_first (badMax rk : Nat) (eq : Bool) : first barren (limited badMax) (barrenStart rk eq) =
    .go { barrenStart rk eq with k1 := barrenRate, moles := fun j => barrenRate j * (1 / 5), time := 0 + 0 } := by
  have h1 : molesMax (limited badMax) = 1 / 10 := by simp [molesMax, limited]
  have h2 : raise (1 / 10) barrenRate 1 = 1 := raise_small _ (by
    rw [barrenRate_eq, abs_of_pos (by norm_num)]; norm_num)
  simp only [first, barrenStart, Bool.false_eq_true, if_false, rate, barren, Act.bind, check, h1]
  change (if 1 < raise (1 / 10) barrenRate 1 then _ else _) = _
  rw [h2, if_neg (lt_irrefl _)]
  simp only [Act.go.injEq, St.mk.injEq]
  refine ⟨trivial, trivial, trivial, trivial, trivial, rfl, trivial, rfl, ?_⟩
  refine ⟨trivial, trivial, trivial, trivial, trivial, trivial, trivial, trivial, trivial, trivial, h2, trivial, trivial,
    trivial, rfl, trivial⟩

theorem barren_start (badMax rk : Nat) (eq : Bool) :
    ∃ s', attempt barren (limited badMax) (barrenStart rk eq) = .again s' ∧ Stuck s' := by
  have hs : shrink (barrenStart rk eq) = barrenStart rk eq := shrink_id (le_refl _)
  have hp : 0 < barrenRate 0 := by rw [barrenRate_eq]; norm_num
  have hp5 : 0 < barrenRate 0 * (1 / 5) := by linarith
  unfold attempt
  rw [hs, barren_first]
  simp only [Act.bind, quick1]
  by_cases hc : rk = 1 ∧ eq = true
  · have hz : ¬ ∀ j : Fin 1, |barrenRate j| ≤ minTotal := by
      intro h
      have := h 0
      rw [barrenRate_eq, abs_of_pos (by norm_num), minTotal] at this
      norm_num at this
    rw [if_pos (by exact hc), if_neg hz]
    have hb : barren.run (barrenStart rk eq).cell (limit (barrenStart rk eq).mT barrenRate) = .balance :=
      barren_react (s := { barrenStart rk eq with moles := barrenRate }) hp (by show (0 : ℚ) < 1; norm_num)
    simp only [finish, hb]
    exact ⟨_, rfl, rfl, by show (0 : ℚ) < 1; norm_num, hp, by show (0 : ℚ) < 1; norm_num⟩
  · rw [if_neg (by exact hc)]
    dsimp only
    rw [barren_trial]
    · exact ⟨_, rfl, rfl, by show (0 : ℚ) < 1; norm_num, hp, by show (0 : ℚ) < 1; norm_num⟩
    · exact hp5
    · show (0 : ℚ) < 1
      norm_num

/-- A violation of C175: trials in which an element gets a negative amount are not counted as bad steps (kinetics.cpp:396
is not passed on the way back to `MOLES_TOO_LARGE`), so that the integration need not end, whatever the limit for bad
steps. With numbers of limited precision it goes on until the step is too small for a number. -/
theorem no_end (badMax k rk : Nat) :
    integrate barren (limited badMax) k rk (fun _ => 1) () ⟨(), (), ()⟩ = .more := by
  have hb : begin barren (limited badMax) rk (fun _ => 1) () ⟨(), (), ()⟩ =
      .ok (barrenStart (order rk) (decide (order rk ≠ 6) && decide ((1 : ℚ) ≤ 1))) := by
    simp [begin, barren, limited, barrenStart]
  unfold integrate
  rw [hb]
  dsimp only
  cases k with
  | zero => rfl
  | succ k =>
    obtain ⟨s', e', hs'⟩ := barren_start badMax (order rk) (decide (order rk ≠ 6) && decide ((1 : ℚ) ≤ 1))
    rw [drive, if_neg (by simp [limited, barrenStart]), if_neg (by simp [barrenStart]), e']
    dsimp only
    rw [stuck_drive _ k s' hs']

/-- A violation of C177 for order one, the order to which the options are changed after rates were equal: the rate at the
end of the step is asked for with the time of its start, so that a rate that depends on the time is taken as constant.
For the rate `1 + t` the exact amount is 1/20 + 1/800. -/
theorem order_one_time : ∃ s, integrate (tank fun _ t => 1 + t) (par (1 / 20) (1 / 10 ^ 8) 1) 5 1 (fun _ => 1) 0
    ⟨0, (), ()⟩ = .ok s ∧ (s.steps.map Step.evals = [1] ∧ s.m 0 = 1 - 1 / 20) :=
  Res.of_holds (by decide +kernel)

/-- A violation of C177 for order one: a rate that is nothing at the start of the time step is nothing in all of it. -/
theorem order_one_late : ∃ s, integrate (tank fun _ t => t) (par (1 / 20) (1 / 10 ^ 8) 1) 5 1 (fun _ => 1) 0
    ⟨0, (), ()⟩ = .ok s ∧ (s.steps.map Step.evals = [0] ∧ s.m 0 = 1) :=
  Res.of_holds (by decide +kernel)

/-- The full method, for which `polynomial_rates` holds: exact for `1 + t`. -/
example : ∃ s, integrate (tank fun _ t => 1 + t) (par (1 / 20) (1 / 10 ^ 8) 1) 5 6 (fun _ => 1) 0
    ⟨0, (), ()⟩ = .ok s ∧ (s.steps.map Step.evals = [6] ∧ s.m 0 = 1 - (1 / 20 + 1 / 800)) :=
  Res.of_holds (by decide +kernel)

end Verif.Kinetics
