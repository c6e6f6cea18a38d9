import Verif.Kinetics.Steps

/-!
# The loop as a whole
-/

namespace Verif.Kinetics

open Spec

variable {n : Nat} {κ σ π ρ : Type}

theorem fold_max_le (f : Fin n → ℚ) (l : List (Fin n)) (e : ℚ) :
    e ≤ l.foldl (fun e j => if e < f j then f j else e) e ∧
      ∀ j ∈ l, f j ≤ l.foldl (fun e j => if e < f j then f j else e) e := by
  induction l generalizing e with
  | nil => simp
  | cons a l ih =>
    simp only [List.foldl_cons, List.mem_cons, forall_eq_or_imp]
    by_cases h : e < f a
    · simp only [if_pos h]
      exact ⟨le_trans h.le (ih _).1, (ih _).1, (ih _).2⟩
    · simp only [if_neg h]
      exact ⟨(ih _).1, le_trans (not_lt.1 h) (ih _).1, (ih _).2⟩

theorem errorMax_ge (P : Par n) (s : St n κ σ π ρ) (j : Fin n) : errorOf s j / P.tol j ≤ errorMax P s :=
  (fold_max_le (fun j => errorOf s j / P.tol j) (List.finRange n) 0).2 j (List.mem_finRange j)

theorem errorOf_le {P : Par n} (hP : Fair P) {s : St n κ σ π ρ} (h : errorMax P s ≤ 1) (j : Fin n) :
    errorOf s j ≤ P.tol j := by
  have := le_trans (errorMax_ge P s j) h
  rwa [div_le_one (hP.tol j)] at this

theorem grow_room {P : Par n} (hP : Fair P) {e h hSum : ℚ} (h0 : 0 < h) (hs : hSum ≤ P.kin) :
    hSum = P.kin ∨ (0 < grow P e h hSum ∧ hSum + grow P e h hSum ≤ P.kin) := by
  rcases lt_or_eq_of_le hs with hlt | heq
  · right
    have hpos : 0 < (if 577 / 10 ^ 6 < e then h * (7 / 10) * P.p5 e else h * 4) := by
      split_ifs with he
      · have := hP.p5 e (by linarith [show (0 : ℚ) < 577 / 10 ^ 6 by norm_num])
        positivity
      · positivity
    simp only [grow, if_pos hlt]
    generalize (if 577 / 10 ^ 6 < e then h * (7 / 10) * P.p5 e else h * 4) = w at hpos
    split_ifs with hw
    · exact ⟨by linarith, by linarith⟩
    · exact ⟨hpos, by linarith [not_lt.1 hw]⟩
  · exact .inl heq

theorem judge_sat {X : Ctx n κ σ π ρ} (hP : Fair X.P) {s : St n κ σ π ρ} (h : L6 X s) :
    (judge X.c X.P s).Sat (fun _ => False) (Ag X) (Tu X) (Qu X) := by
  obtain ⟨y, hm, hcl, h2, h3, he, h4, h5, h6⟩ := h
  have hc := hm.core
  unfold judge
  dsimp only
  by_cases h1 : 1 < errorMax X.P { s with k6 := s.moles }
  · rw [if_pos h1]
    generalize hq : errorMax X.P { s with k6 := s.moles } = e at *
    have hw : 0 < (if s.stepOk = 0 then s.h * (7 / 10) / e else s.h * (7 / 10) * X.P.p4 e) ∧
        (if s.stepOk = 0 then s.h * (7 / 10) / e else s.h * (7 / 10) * X.P.p4 e) ≤ s.h := by
      have hp := hc.pos
      split_ifs
      · refine ⟨by apply div_pos <;> linarith, ?_⟩
        rw [div_le_iff₀ (by linarith)]
        nlinarith
      · obtain ⟨a, b⟩ := hP.p4 e h1
        exact ⟨by positivity, by nlinarith⟩
    refine ⟨y, .inr ⟨?_, rfl, hm.red, he, hw.2⟩⟩
    exact
      { path := hc.path, sum := hc.sum, pos := hw.1
        le := by
          refine le_trans ?_ hc.le
          show s.hSum + (if s.stepOk = 0 then s.h * (7 / 10) / e else s.h * (7 / 10) * X.P.p4 e) ≤ s.hSum + s.h
          linarith [hw.2]
        eqh := fun e => by
          have : s.eq = true := e
          rw [he] at this; cases this
        main := hc.main, pp := hc.pp, ss := hc.ss, rks := hc.rks, r6 := hc.r6, r1 := hc.r1, r2 := hc.r2, six := hc.six, full := hc.full
        hk0 := hc.hk0, k1 := hc.k1, clean := hc.clean }
  · rw [if_neg h1]
    rw [not_lt] at h1
    set w : V n := fun j => 37 / 378 * s.k1 j + 250 / 621 * s.k3 j + 125 / 594 * s.k4 j + 512 / 1771 * s.moles j with hw
    have hm' : Mid X y { s with k6 := s.moles, moles := w } :=
      ⟨hc.of (e9 := fun e => e) (e11 := hc.clean), hm.bad, hm.red⟩
    refine (finish_sat hm' 6 (G := fun s' => ∃ x p q k,
      X.c.run s.cell (atMost s.mT w) = .ok x p q ∧
      s' = { s with
        k6 := s.moles
        m := rest s.mT (atMost s.mT w)
        moles := k
        cur := x
        cell := ⟨s.cell.main, p, q⟩
        steps := s.steps ++ [⟨6, s.h, atMost s.mT w, s.mT, rest s.mT (atMost s.mT w)⟩]
        eq := false }) ?_).bind ?_
    · intro x p q k a b
      refine ⟨x, p, q, k, a, ?_⟩
      simp only [he, Bool.false_and]
    · rintro s' ⟨x, p, q, k, a, rfl⟩
      rw [hcl] at a
      simp only [Act.Sat, keep, Bool.false_eq_true, false_and, if_false]
      refine ⟨x, .inl ?_⟩
      exact
        { path := by
            refine hc.path.step hc.pos (by decide) (.inr (.inr (.inr (.inr ⟨rfl, ?_⟩)))) a
            rw [hc.sum]
            obtain ⟨h', r, hle, hr, hk1, -⟩ := hc.k1
            obtain ⟨B, hB, hB', hE2⟩ := h2
            refine ⟨h', r, s.k1, s.k2, s.k3, s.k4, s.k5, s.moles, B, hle, hr, hk1, hB, fun e => hB' (.inr e), hE2, h3,
              h4, h5, h6, fun j => ?_, rfl⟩
            have := errorOf_le hP h1 j
            simp only [errorOf] at this
            refine le_trans (le_of_eq ?_) this
            congr 1
            ring
          sum := by
            show span (s.steps ++ [_]) = _
            rw [span_append, hc.sum]
          room := grow_room hP hc.pos hc.le
          eqh := fun e => by cases e
          cur := rfl
          cell := rfl
          rks := hc.rks
          r6 := fun _ => rfl
          r1 := hc.r1
          r2 := hc.r2
          full := fun _ => rfl
          six := fun st hst => by
            rcases List.mem_append.1 hst with h | h
            · exact hc.six st h
            · rw [List.mem_singleton.1 h]
          bad := hm.bad
          red := hm.red }

theorem attempt_sat {X : Ctx n κ σ π ρ} (hP : Fair X.P) {s : St n κ σ π ρ}
    (h : Ag X s ∨ (∃ y, Bad X y s) ∨ ∃ y, Fresh X y s ∧ 0 < s.h ∧ s.hSum + s.h ≤ X.P.kin) :
    (attempt X.c X.P s).Sat (fun _ => False) (Ag X) (Tu X) (Qu X) := by
  unfold attempt
  have h1 : (first X.c X.P (shrink s)).Sat (F1 X) (Ag X) (Tu X) (Qu X) := by
    rcases h with ⟨y, h⟩ | ⟨y, h⟩ | ⟨y, h, h'⟩
    · exact first_bad (shrink_over h)
    · rw [shrink_id h.red]; exact first_bad h
    · rw [shrink_id h.red]; exact first_fresh h h'
  refine h1.bind fun s h => ?_
  refine (quick1_sat h).bind fun s h => ?_
  refine (trial1_sat h).bind fun s h => ?_
  refine (store2_sat h).bind fun s h => ?_
  refine (quick2_sat h).bind fun s h => ?_
  refine (trial2_sat h).bind fun s h => ?_
  refine (store3_sat h).bind fun s h => ?_
  refine (quick3_sat h).bind fun s h => ?_
  refine (trial3_sat h).bind fun s h => ?_
  refine (store4_sat h).bind fun s h => ?_
  refine (trial4_sat h).bind fun s h => ?_
  refine (store5_sat h).bind fun s h => ?_
  exact (trial5_sat h).bind fun s h => judge_sat hP h

theorem Fresh.done {X : Ctx n κ σ π ρ} {y : κ} {s : St n κ σ π ρ} (h : Fresh X y s) (hs : s.hSum = X.P.kin) :
    Done X y s where
  path := h.path
  sum := by rw [h.sum, hs]
  cur := h.cur
  main := by rw [h.cell]
  pp := by rw [h.cell]
  cell := fun _ => h.cell
  lone := .inl h.six

theorem drive_done {X : Ctx n κ σ π ρ} (hP : Fair X.P) (k : Nat) (top : Bool) (s s' : St n κ σ π ρ)
    (h : if top then Tu X s else Ag X s) (hd : drive X.c X.P k top s = .ok s') : Qu X s' := by
  induction k generalizing top s with
  | zero => simp [drive] at hd
  | succ k ih =>
    unfold drive at hd
    have step : (Ag X s ∨ (∃ y, Bad X y s) ∨ ∃ y, Fresh X y s ∧ 0 < s.h ∧ s.hSum + s.h ≤ X.P.kin) →
        (match attempt X.c X.P s with
          | .go s => Res.ok s
          | .again s => drive X.c X.P k false s
          | .turn s => drive X.c X.P k true s
          | .quit s => .ok s
          | .err => .err) = .ok s' → Qu X s' := by
      intro hk hd
      have := attempt_sat hP hk
      generalize attempt X.c X.P s = a at *
      cases a with
      | go s => exact this.elim
      | again s => exact ih false s (by rw [if_neg (by simp)]; exact this) hd
      | turn s => exact ih true s (by rw [if_pos rfl]; exact this) hd
      | quit s => cases hd; exact this
      | err => cases hd
    cases top with
    | false =>
      simp only [Bool.false_eq_true, false_and, if_false] at hd h
      exact step (.inl h) hd
    | true =>
      simp only [true_and, if_true] at hd h
      split_ifs at hd with h1 h2
      · cases hd
        obtain ⟨y, h | h⟩ := h
        · rcases h.room with hr | hr
          · exact ⟨y, h.done hr⟩
          · exfalso; linarith [hr.1, hr.2]
        · exfalso
          linarith [h.core.pos, h.core.le]
      · refine step ?_ hd
        obtain ⟨y, h | h⟩ := h
        · rcases h.room with hr | hr
          · exact absurd hr.ge h1
          · exact .inr (.inr ⟨y, h, hr⟩)
        · exact .inr (.inl ⟨y, h⟩)

/-- The result of the first calculation, which may be an old one. -/
def startOf (c : Chem n κ σ π ρ) (old : κ) (cell : Cell σ π ρ) : Option κ :=
  match c.run cell 0 with
  | .fail => none
  | .balance => some old
  | .ok x _ _ => some x

theorem order_cases (rk : Nat) : order rk = 1 ∨ order rk = 2 ∨ order rk = 3 ∨ order rk = 6 := by
  simp only [order]
  split_ifs <;> omega

theorem begin_fresh {c : Chem n κ σ π ρ} {P : Par n} (hP : Fair P) {rk : Nat} {m : V n} {old : κ}
    {cell : Cell σ π ρ} {s : St n κ σ π ρ} (h : begin c P rk m old cell = .ok s) :
    ∃ x, startOf c old cell = some x ∧
      Fresh ⟨c, P, decide (order rk = 1), decide (order rk = 2), decide (order rk = 6 ∨ 1 < P.divide), x, m⟩ x s := by
  have hh : 0 < (if 1 < P.divide then P.kin / P.divide else P.kin) ∧
      0 + (if 1 < P.divide then P.kin / P.divide else P.kin) ≤ P.kin := by
    have := hP.kin
    split_ifs with hd
    · refine ⟨div_pos hP.kin hP.divide, ?_⟩
      rw [zero_add, div_le_iff₀ hP.divide]
      nlinarith
    · exact ⟨this, by linarith⟩
  have key : ∀ x, Fresh
      ⟨c, P, decide (order rk = 1), decide (order rk = 2), decide (order rk = 6 ∨ 1 < P.divide), x, m⟩ x
      ({ cell := c.save x, cur := x, ppS := (c.save x).pp, ssS := (c.save x).ss, m := m, moles := 0, mT := m,
         k1 := 0, k2 := 0, k3 := 0, k4 := 0, k5 := 0, k6 := 0, rk := order rk,
         eq := decide (order rk ≠ 6) && decide (P.divide ≤ 1),
         h := if 1 < P.divide then P.kin / P.divide else P.kin,
         hOld := if 1 < P.divide then P.kin / P.divide else P.kin,
         hSum := 0, red := 1, bad := false, stepBad := 0, stepOk := 0, time := P.start, steps := [] } :
        St n κ σ π ρ) := fun x =>
    { path := .nil
      sum := by simp [span]
      room := .inr hh
      eqh := fun e => by
        simp only [Bool.and_eq_true, decide_eq_true_eq] at e
        exact ⟨if_neg (not_lt.2 e.2), rfl, rfl⟩
      cur := rfl
      cell := rfl
      rks := order_cases rk
      r6 := fun e => by
        have e' : order rk = 6 := e
        simp [e']
      r1 := fun e => of_decide_eq_false e
      r2 := fun e => of_decide_eq_false e
      full := fun e => by
        rcases of_decide_eq_true e with e | e
        · simp [e]
        · simp [e]
      six := fun st hst => by cases hst
      bad := rfl
      red := le_refl _ }
  unfold begin at h
  unfold startOf
  dsimp only at h
  cases hr : c.run cell 0 with
  | fail => rw [hr] at h; cases h
  | balance => rw [hr] at h; cases h; exact ⟨_, rfl, key _⟩
  | ok x p q => rw [hr] at h; cases h; exact ⟨_, rfl, key _⟩

/-- The whole. -/
theorem integrate_done {c : Chem n κ σ π ρ} {P : Par n} (hP : Fair P) {k rk : Nat} {m : V n} {old : κ}
    {cell : Cell σ π ρ} {s : St n κ σ π ρ} (h : integrate c P k rk m old cell = .ok s) :
    ∃ x y s', startOf c old cell = some x ∧
      Done ⟨c, P, decide (order rk = 1), decide (order rk = 2), decide (order rk = 6 ∨ 1 < P.divide), x, m⟩ y s' ∧
      last c s' = .ok s := by
  unfold integrate at h
  cases hb : begin c P rk m old cell with
  | err => rw [hb] at h; cases h
  | more => rw [hb] at h; cases h
  | ok s0 =>
    rw [hb] at h
    obtain ⟨x, hx, hf⟩ := begin_fresh hP hb
    dsimp only at h
    cases hd : drive c P k true s0 with
    | err => rw [hd] at h; cases h
    | more => rw [hd] at h; cases h
    | ok s' =>
      rw [hd] at h
      obtain ⟨y, hy⟩ := drive_done (X := ⟨c, P, decide (order rk = 1), decide (order rk = 2),
        decide (order rk = 6 ∨ 1 < P.divide), x, m⟩) hP k true s0 s' (by rw [if_pos rfl]; exact ⟨x, .inl hf⟩) hd
      exact ⟨x, y, s', hx, hy, h⟩

end Verif.Kinetics
