import Verif.Kinetics.Times

/-!
# Properties of the integration of kinetic rates

C175 (the steps cover the time step), C176 (amounts), C177 (accuracy), C178 (each step is a step of the method).
-/

namespace Verif.Kinetics

open Spec

variable {n : Nat} {κ σ π ρ : Type}

theorem last_same {c : Chem n κ σ π ρ} {s s' : St n κ σ π ρ} (h : last c s' = .ok s) :
    s.steps = s'.steps ∧ s.m = s'.m ∧ s.rk = s'.rk := by
  unfold last at h
  cases hr : c.run s'.cell 0 with
  | fail => rw [hr] at h; cases h
  | balance => rw [hr] at h; cases h; exact ⟨rfl, rfl, rfl⟩
  | ok x p q => rw [hr] at h; cases h; exact ⟨rfl, rfl, rfl⟩

/-- C175. When the integration ends, the steps that were taken have a positive length and together are exactly the time
step, whatever the chemistry, the rates, the order and the number of steps that were turned down. -/
theorem time_covered {c : Chem n κ σ π ρ} {P : Par n} (hP : Fair P) {k rk : Nat} {m : V n} {old : κ}
    {cell : Cell σ π ρ} {s : St n κ σ π ρ} (h : integrate c P k rk m old cell = .ok s) :
    span s.steps = P.kin ∧ (∀ st ∈ s.steps, 0 < st.h) ∧ Chain m s.steps s.m := by
  obtain ⟨x, y, s', -, hd, hl⟩ := integrate_done hP h
  obtain ⟨e1, e2, -⟩ := last_same hl
  rw [e1, e2]
  exact ⟨hd.sum, Path.pos hd.path, Path.chain hd.path⟩

/-- C175. The rate programs are asked for no time outside of the time step and for no length of more than the time step:
what they say elsewhere makes no difference. -/
theorem rates_within {c : Chem n κ σ π ρ} {P : Par n} (hP : Fair P) {r' : κ → V n → ℚ → ℚ → Option (V n)}
    (hr : ∀ x m t h, P.start ≤ t → t ≤ P.start + P.kin → 0 < h → h ≤ P.kin → c.rates x m t h = r' x m t h)
    (k rk : Nat) (m : V n) (old : κ) (cell : Cell σ π ρ) :
    integrate c P k rk m old cell = integrate { c with rates := r' } P k rk m old cell :=
  integrate_same hP hr k rk m old cell

/-- C175. Steps that are not the whole time step are full steps of the method: an early end is the only step. -/
theorem early_end_alone {c : Chem n κ σ π ρ} {P : Par n} (hP : Fair P) {k rk : Nat} {m : V n} {old : κ}
    {cell : Cell σ π ρ} {s : St n κ σ π ρ} (h : integrate c P k rk m old cell = .ok s)
    (he : ∃ st ∈ s.steps, st.evals ≠ 6) : rk ≤ 3 ∧ P.divide ≤ 1 ∧ ∃ st, s.steps = [st] ∧ st.h = P.kin := by
  obtain ⟨x, y, s', -, hd, hl⟩ := integrate_done hP h
  obtain ⟨e1, -, -⟩ := last_same hl
  rw [e1] at he ⊢
  rcases hd.lone with h | ⟨hf, st, hst⟩
  · obtain ⟨st, hst, hne⟩ := he
    exact absurd (h st hst) hne
  · have hf' := of_decide_eq_false hf
    rw [not_or] at hf'
    refine ⟨?_, not_lt.1 hf'.2, st, hst, ?_⟩
    · by_contra hc
      exact hf'.1 (by simp only [order]; rw [if_neg (by omega), if_pos (by omega)])
    · have := hd.sum
      rw [hst] at this
      simpa [span] using this

/-- C176. In each step no more of a reactant reacts than there is; what is left is not negative and is, up to 10⁻³⁰, what
was there less what reacted. If nothing was calculated, nothing changes. -/
theorem amounts_right {c : Chem n κ σ π ρ} {P : Par n} (hP : Fair P) {k rk : Nat} {m : V n} {old : κ}
    {cell : Cell σ π ρ} {s : St n κ σ π ρ} (h : integrate c P k rk m old cell = .ok s) :
    ∀ st ∈ s.steps, (st.evals = 0 ∧ st.moles = 0 ∧ st.after = st.before) ∨
      (st.evals ≠ 0 ∧ ∀ j, st.moles j ≤ st.before j ∧ 0 ≤ st.after j ∧
        |st.after j - (st.before j - st.moles j)| ≤ 1 / 10 ^ 30) := by
  obtain ⟨x, y, s', -, hd, hl⟩ := integrate_done hP h
  obtain ⟨e1, -, -⟩ := last_same hl
  rw [e1]
  exact Path.amounts hd.path

theorem done_cell {X : Ctx n κ σ π ρ} {y : κ} {s : St n κ σ π ρ} (hd : Done X y s)
    (h : X.two = false ∨ ∀ a b : ρ, a = b) : s.cell = X.c.save y := by
  rcases h with h | h
  · exact hd.cell h
  · have h1 := hd.main
    have h2 := hd.pp
    generalize X.c.save y = B at *
    cases hc : s.cell with
    | mk a b d =>
      cases B with
      | mk a' b' d' =>
        rw [hc] at h1 h2
        dsimp only at h1 h2
        rw [h1, h2, h d d']

/-- C176. Nothing is made or lost. A quantity that each calculation keeps, when the share `f j` of each mole of
reactant `j` that reacts is added, is kept by the integration as a whole: the change of the result and the change of
the reactants cancel up to 10⁻³⁰ for each step and reactant. Steps that were turned down leave nothing behind.

Partial: the first calculation must have a result, and the order must not be two if there are solid solutions; see
`stale_result` and `order_two_solids`. -/
theorem mass_kept_partial {c : Chem n κ σ π ρ} {P : Par n} (hP : Fair P) {q : Cell σ π ρ → ℚ} {qc : κ → ℚ} {f : V n}
    (hk : Kept c q qc f) {k rk : Nat} {m : V n} {old : κ} {cell : Cell σ π ρ} {s : St n κ σ π ρ}
    (h0 : c.run cell 0 ≠ .balance) (h2 : order rk ≠ 2 ∨ ∀ a b : ρ, a = b)
    (h : integrate c P k rk m old cell = .ok s) :
    |(qc s.cur + ∑ j, f j * s.m j) - (q cell + ∑ j, f j * m j)| ≤
      s.steps.length * ((∑ j, |f j|) * (1 / 10 ^ 30)) := by
  obtain ⟨x, y, s', hx, hd, hl⟩ := integrate_done hP h
  obtain ⟨e1, e2, -⟩ := last_same hl
  have hq : qc x = q cell := by
    unfold startOf at hx
    cases hr : c.run cell 0 with
    | fail => rw [hr] at hx; cases hx
    | balance => exact absurd hr h0
    | ok x' p r =>
      rw [hr] at hx
      cases hx
      rw [hk.run _ _ _ _ _ hr]
      simp
  have hc := done_cell hd (h2.imp (fun h => decide_eq_false h) id)
  have hcur : qc s.cur = qc y := by
    unfold last at hl
    cases hr : c.run s'.cell 0 with
    | fail => rw [hr] at hl; cases hl
    | balance => rw [hr] at hl; cases hl; rw [hd.cur]
    | ok x' p r =>
      rw [hr] at hl
      cases hl
      show qc x' = qc y
      rw [hk.run _ _ _ _ _ hr, hc, hk.save]
      simp
  rw [hcur, e1, e2, ← hq]
  exact Path.kept hk hd.path

/-- C177. Rates that do not change are integrated exactly, with each order, if no reactant is used up. The exception is a
time step in which no rate comes to more than 10⁻²⁵ moles. -/
theorem constant_rates {c : Chem n κ σ π ρ} {P : Par n} (hP : Fair P) {r : V n}
    (hr : ∀ x m t h, c.rates x m t h = some (fun j => r j * h)) {k rk : Nat} {m : V n} {old : κ} {cell : Cell σ π ρ}
    {s : St n κ σ π ρ} (hm : ∀ j, 1 / 10 ^ 30 ≤ m j ∧ 1 / 10 ^ 30 ≤ m j - r j * P.kin)
    (h : integrate c P k rk m old cell = .ok s) :
    (∀ j, s.m j = m j - r j * P.kin) ∨ (s.m = m ∧ ∀ j, |r j * P.kin| ≤ 1 / 10 ^ 25) := by
  obtain ⟨x, y, s', -, hd, hl⟩ := integrate_done hP h
  obtain ⟨e1, e2, -⟩ := last_same hl
  rw [e2]
  by_cases hz : ∀ st ∈ s'.steps, st.evals ≠ 0
  · left
    have := Path.const hr (fun j => (hm j).1) (fun j => (hm j).2) hd.path hd.sum.le hz
    intro j
    rw [this, hd.sum]
  · right
    push Not at hz
    obtain ⟨st, hst, hz⟩ := hz
    rcases hd.lone with h | ⟨-, st', hst'⟩
    · rw [h st hst] at hz; cases hz
    · have hp := hd.path
      have hs := hd.sum
      rw [hst'] at hp hst hs
      rw [List.mem_singleton.1 hst] at hz
      have hs' : st'.h = P.kin := by simpa [span] using hs
      generalize hL : [st'] = L at hp
      generalize s'.m = mm at hp ⊢
      cases hp with
      | nil => cases hL
      | @zero l y m' hh hpa hpos hM =>
        have hl0 : l = [] := by
          cases l with
          | nil => rfl
          | cons a l => simp at hL
        subst hl0
        refine ⟨(Path.of_nil hpa).2, ?_⟩
        simp only [List.nil_append, List.cons.injEq, and_true] at hL
        rw [hL] at hs'
        rcases hM with ⟨-, hM⟩ | ⟨e, -⟩ | ⟨e, -⟩ | ⟨e, -⟩ | ⟨e, -⟩
        · obtain ⟨k, hk, hb, -⟩ := hM
          rw [hr] at hk
          rw [← Option.some.inj hk] at hb
          rw [← hs']
          exact hb
        all_goals cases e
      | @step l y m' hh b v z p q hpa hpos hb hM hrun =>
        have hl0 : l = [] := by
          cases l with
          | nil => rfl
          | cons a l => simp at hL
        subst hl0
        simp only [List.nil_append, List.cons.injEq, and_true] at hL
        rw [hL] at hz
        exact absurd hz hb

/-- C177. With the full method (order above three, or a first step that is a part of the time step) rates that are
polynomials of degree at most four in the time are integrated exactly, if no reactant is used up. -/
theorem polynomial_rates {c : Chem n κ σ π ρ} {P : Par n} (hP : Fair P) {a : Fin 5 → V n}
    (hr : ∀ x m t h, c.rates x m t h =
      some (fun j => (a 0 j + a 1 j * t + a 2 j * t ^ 2 + a 3 j * t ^ 3 + a 4 j * t ^ 4) * h))
    {k rk : Nat} (ho : 3 < rk ∨ 1 < P.divide) {m : V n} {old : κ} {cell : Cell σ π ρ} {s : St n κ σ π ρ}
    (hm : ∀ j τ, 0 ≤ τ → τ ≤ P.kin → 1 / 10 ^ 30 ≤ m j - (prim a (P.start + τ) j - prim a P.start j))
    (h : integrate c P k rk m old cell = .ok s) (j : Fin n) :
    s.m j = m j - (prim a (P.start + P.kin) j - prim a P.start j) := by
  obtain ⟨x, y, s', -, hd, hl⟩ := integrate_done hP h
  obtain ⟨e1, e2, -⟩ := last_same hl
  rw [e2]
  have h6 : ∀ st ∈ s'.steps, st.evals = 6 := by
    rcases hd.lone with h | ⟨hf, -⟩
    · exact h
    · have hf' := of_decide_eq_false hf
      refine absurd (ho.imp (fun h => ?_) id) hf'
      simp only [order]
      rw [if_neg (by omega), if_pos h]
  have := Path.poly (a := a) hr hm hd.path hd.sum.le h6
  rw [this, hd.sum]

/-- Rescaling the first evaluation is evaluating it again. -/
theorem six_karp {c : Chem n κ σ π ρ} (hL : Linear c) {tol : V n} {x : κ} {m : V n} {t h : ℚ} {v : V n} (hp : 0 < h)
    (hs : Six c tol false x m t h v) : Karp c tol x m t h v := by
  obtain ⟨h', r, k1, k2, k3, k4, k5, k6, B, hh, hk, hk1, -, hB, h2, h3, h4, h5, h6, he, hv⟩ := hs
  have hp' : 0 < h' := lt_of_lt_of_le hp hh
  have := hL x m t h' (h / h') r hp' (div_pos hp hp') hk
  rw [mul_div_cancel₀ _ (ne_of_gt hp'), ← hk1] at this
  rw [hB rfl] at h2
  exact ⟨k1, k2, k3, k4, k5, k6, this, h2, h3, h4, h5, h6, he, hv⟩

/-- C178. The result is a sequence of steps, each from the cell that was saved after the one before: Cash–Karp steps with
an estimated error within the tolerance, or the one early end. This is so with every order but one, if the moles of the
rate programs are proportional to the length of the step; see `order_one_trial` for order one. -/
theorem steps_of_method_partial {c : Chem n κ σ π ρ} {P : Par n} (hP : Fair P) (hL : Linear c) {k rk : Nat} {m : V n}
    {old : κ} {cell : Cell σ π ρ} {s : St n κ σ π ρ} (ho : order rk ≠ 1)
    (h : integrate c P k rk m old cell = .ok s) :
    ∃ x y, startOf c old cell = some x ∧ Path c (MayKarp c P.tol) P.start x m s.steps y s.m := by
  obtain ⟨x, y, s', hx, hd, hl⟩ := integrate_done hP h
  obtain ⟨e1, e2, -⟩ := last_same hl
  rw [e1, e2]
  have hp := hd.path
  simp only [decide_eq_false ho] at hp
  refine ⟨x, y, hx, Path.mono hp fun y m t h b v hpos hM => ?_⟩
  rcases hM with h | h | h | h | ⟨e, h⟩
  · exact .inl h
  · exact .inr (.inl h)
  · exact .inr (.inr (.inl h))
  · exact .inr (.inr (.inr (.inl h)))
  · exact .inr (.inr (.inr (.inr ⟨e, six_karp hL hpos h⟩)))

/-- C178. With order one the same holds, but the second evaluation may start from other minerals. -/
theorem steps_of_order_one_partial {c : Chem n κ σ π ρ} {P : Par n} (hP : Fair P) {k rk : Nat} {m : V n}
    {old : κ} {cell : Cell σ π ρ} {s : St n κ σ π ρ} (h : integrate c P k rk m old cell = .ok s) :
    ∃ x y, startOf c old cell = some x ∧ Path c (May c P.tol true) P.start x m s.steps y s.m := by
  obtain ⟨x, y, s', hx, hd, hl⟩ := integrate_done hP h
  obtain ⟨e1, e2, -⟩ := last_same hl
  rw [e1, e2]
  refine ⟨x, y, hx, Path.mono hd.path fun y m t h b v hpos hM => ?_⟩
  rcases hM with h | h | h | h | ⟨e, h⟩
  · exact .inl h
  · exact .inr (.inl h)
  · exact .inr (.inr (.inl h))
  · exact .inr (.inr (.inr (.inl h)))
  · refine .inr (.inr (.inr (.inr ⟨e, ?_⟩)))
    obtain ⟨h', r, k1, k2, k3, k4, k5, k6, B, a1, a2, a3, a4, -, a5⟩ := h
    exact ⟨h', r, k1, k2, k3, k4, k5, k6, B, a1, a2, a3, a4, (fun e => by cases e), a5⟩

end Verif.Kinetics
