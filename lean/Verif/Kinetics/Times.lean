import Verif.Kinetics.Facts

/-!
# When the rate programs are asked

Two chemistries whose rate programs agree within the time step give the same result.
-/

namespace Verif.Kinetics

open Spec

variable {n : Nat} {κ σ π ρ : Type}

theorem Act.Sat.and {α : Type} {a : Act α} {G G' A A' T T' Q Q' : α → Prop} (h : a.Sat G A T Q)
    (h' : a.Sat G' A' T' Q') : a.Sat (fun s => G s ∧ G' s) A T Q := by
  cases a <;> simp only [Act.Sat] at * <;> first | exact ⟨h, h'⟩ | exact h | trivial

theorem Act.bind_congr {α : Type} {a a' : Act α} {f g : α → Act α} {G A T Q : α → Prop} (ha : a = a')
    (hs : a.Sat G A T Q) (hf : ∀ s, G s → f s = g s) : a.bind f = a'.bind g := by
  subst ha
  cases a <;> simp only [Act.bind, Act.Sat] at *
  exact hf _ hs

/-- Nothing. -/
abbrev Tr {α : Type} : α → Prop := fun _ => True

theorem sat_tr {α : Type} (a : Act α) : a.Sat Tr Tr Tr Tr := by cases a <;> trivial

/-- The time is within the time step. -/
def Tm (P : Par n) (s : St n κ σ π ρ) : Prop := P.start ≤ s.time ∧ s.time ≤ P.start + P.kin

/-- The rate programs agree within the time step. -/
def Same (P : Par n) (r r' : κ → V n → ℚ → ℚ → Option (V n)) : Prop :=
  ∀ x m t h, P.start ≤ t → t ≤ P.start + P.kin → 0 < h → h ≤ P.kin → r x m t h = r' x m t h

variable {X : Ctx n κ σ π ρ} {r' : κ → V n → ℚ → ℚ → Option (V n)}

theorem Core.hSum_nonneg {y : κ} {s : St n κ σ π ρ} {hk : ℚ} (h : Core X y s hk) : 0 ≤ s.hSum := by
  rw [← h.sum]; exact span_nonneg (Path.pos h.path)

theorem Core.h_le {y : κ} {s : St n κ σ π ρ} {hk : ℚ} (h : Core X y s hk) : s.h ≤ X.P.kin := by
  linarith [h.hSum_nonneg, h.le]

theorem Core.at {y : κ} {s : St n κ σ π ρ} {hk : ℚ} (h : Core X y s hk) {f : ℚ} (h0 : 0 ≤ f) (h1 : f ≤ 1) :
    X.P.start ≤ X.P.start + s.hSum + f * s.h ∧ X.P.start + s.hSum + f * s.h ≤ X.P.start + X.P.kin := by
  have a := h.hSum_nonneg
  have b := h.pos
  have d := h.le
  constructor
  · nlinarith
  · nlinarith

theorem rate_same (hr : Same X.P X.c.rates r') {s : St n κ σ π ρ} (ht : Tm X.P s) (h0 : 0 < s.h)
    (h1 : s.h ≤ X.P.kin) : rate X.c s = rate ⟨r', X.c.run, X.c.save⟩ s := by
  simp only [rate]
  rw [hr s.cur s.m s.time s.h ht.1 ht.2 h0 h1]

theorem trial_same (hr : Same X.P X.c.rates r') {y : κ} {s : St n κ σ π ρ} (h : Mid X y s) {f : ℚ} (h0 : 0 ≤ f)
    (h1 : f ≤ 1) : trial X.c X.P f s = trial ⟨r', X.c.run, X.c.save⟩ X.P f s := by
  simp only [trial, react]
  cases X.c.run s.cell (limit s.mT s.moles) with
  | fail => rfl
  | balance => rfl
  | ok x p q =>
    simp only [Act.bind]
    have := h.core.at h0 h1
    rw [rate_same hr] <;> first | exact this | exact h.core.pos | exact h.core.h_le

theorem trial_tm {y : κ} {s : St n κ σ π ρ} (h : Mid X y s) {f : ℚ} (h0 : 0 ≤ f)
    (h1 : f ≤ 1) : (trial X.c X.P f s).Sat (Tm X.P) Tr Tr Tr := by
  simp only [trial, react]
  cases X.c.run s.cell (limit s.mT s.moles) with
  | fail => trivial
  | balance => trivial
  | ok x p q =>
    simp only [Act.bind, rate]
    cases X.c.rates x (s.mT - limit s.mT s.moles) (X.P.start + s.hSum + f * s.h) s.h with
    | none => trivial
    | some v => exact h.core.at h0 h1

theorem check_tm {s : St n κ σ π ρ} (h : Tm X.P s) : (check s).Sat (Tm X.P) Tr Tr Tr := by
  unfold check
  split_ifs
  · trivial
  · exact h

theorem finish_same (hr : Same X.P X.c.rates r') {s : St n κ σ π ρ} (ht : Tm X.P s) (h0 : 0 < s.h)
    (h1 : s.h ≤ X.P.kin) (b : Nat) : finish X.c X.P b s = finish ⟨r', X.c.run, X.c.save⟩ X.P b s := by
  simp only [finish]
  cases X.c.run s.cell (limit s.mT s.moles) with
  | fail => rfl
  | balance => rfl
  | ok x p q =>
    simp only
    rw [rate_same hr] <;> first | exact ht | exact h0 | exact h1

theorem first_same (hr : Same X.P X.c.rates r') {s : St n κ σ π ρ} (h : s.bad = false → 0 ≤ s.hSum ∧ 0 < s.h ∧
    s.hSum + s.h ≤ X.P.kin) : first X.c X.P s = first ⟨r', X.c.run, X.c.save⟩ X.P s := by
  unfold first
  split_ifs with hb
  · rfl
  · obtain ⟨a, b, d⟩ := h (by simpa using hb)
    have t1 : X.P.start ≤ X.P.start + s.hSum := by linarith
    have t2 : X.P.start + s.hSum ≤ X.P.start + X.P.kin := by linarith
    have t3 : s.h ≤ X.P.kin := by linarith
    rw [rate_same hr] <;> first | exact ⟨t1, t2⟩ | exact b | exact t3

theorem quick1_same (hr : Same X.P X.c.rates r') {s : St n κ σ π ρ} (h : F1 X s) :
    quick1 X.c X.P s = quick1 ⟨r', X.c.run, X.c.save⟩ X.P s := by
  obtain ⟨y, hm, -, hy⟩ := h
  unfold quick1
  by_cases h1 : s.rk = 1 ∧ s.eq = true
  · have ht : Tm X.P s := by
      have := hm.core.at (f := 0) (le_refl _) (by norm_num)
      rw [zero_mul, add_zero, ← (hy h1.2).2.2] at this
      exact this
    rw [if_pos h1, if_pos h1]
    rw [finish_same hr] <;> first | exact ht | exact hm.core.pos | exact hm.core.h_le | rfl
  · rw [if_neg h1, if_neg h1]

theorem quick2_same (hr : Same X.P X.c.rates r') {s : St n κ σ π ρ} (h : G3 X s) (ht : Tm X.P s) :
    quick2 X.c X.P s = quick2 ⟨r', X.c.run, X.c.save⟩ X.P s := by
  obtain ⟨y, hm, -⟩ := h
  unfold quick2
  rw [finish_same hr] <;> first | exact ht | exact hm.core.pos | exact hm.core.h_le | rfl

theorem quick3_same (hr : Same X.P X.c.rates r') {s : St n κ σ π ρ} (h : J3 X s) (ht : Tm X.P s) :
    quick3 X.c X.P s = quick3 ⟨r', X.c.run, X.c.save⟩ X.P s := by
  obtain ⟨y, hm, -⟩ := h
  unfold quick3
  rw [finish_same hr] <;> first | exact ht | exact hm.core.pos | exact hm.core.h_le | rfl

theorem quick2_tm {s : St n κ σ π ρ} (ht : Tm X.P s) : (quick2 X.c X.P s).Sat (Tm X.P) Tr Tr Tr := by
  unfold quick2
  split_ifs
  · exact (sat_tr _).bind fun _ _ => trivial
  · exact ht

theorem quick3_tm {s : St n κ σ π ρ} (ht : Tm X.P s) : (quick3 X.c X.P s).Sat (Tm X.P) Tr Tr Tr := by
  unfold quick3
  split_ifs
  · exact (sat_tr _).bind fun _ _ => trivial
  · exact ht

theorem judge_same (hr : Same X.P X.c.rates r') {s : St n κ σ π ρ} (h : L6 X s) (ht : Tm X.P s) :
    judge X.c X.P s = judge ⟨r', X.c.run, X.c.save⟩ X.P s := by
  obtain ⟨y, hm, -⟩ := h
  unfold judge
  dsimp only
  rw [finish_same hr] <;> first | exact ht | exact hm.core.pos | exact hm.core.h_le | rfl

theorem attempt_same (hr : Same X.P X.c.rates r') {s : St n κ σ π ρ}
    (h : Ag X s ∨ (∃ y, Bad X y s) ∨ ∃ y, Fresh X y s ∧ 0 < s.h ∧ s.hSum + s.h ≤ X.P.kin) :
    attempt X.c X.P s = attempt ⟨r', X.c.run, X.c.save⟩ X.P s := by
  have h1 : (first X.c X.P (shrink s)).Sat (F1 X) (Ag X) (Tu X) (Qu X) := by
    rcases h with ⟨y, h⟩ | ⟨y, h⟩ | ⟨y, h, h'⟩
    · exact first_bad (shrink_over h)
    · rw [shrink_id h.red]; exact first_bad h
    · rw [shrink_id h.red]; exact first_fresh h h'
  have h2 : first X.c X.P (shrink s) = first ⟨r', X.c.run, X.c.save⟩ X.P (shrink s) := by
    refine first_same hr fun hb => ?_
    rcases h with ⟨y, h⟩ | ⟨y, h⟩ | ⟨y, h, h'⟩
    · rw [(shrink_over h).bad] at hb; cases hb
    · rw [shrink_id h.red, h.bad] at hb; cases hb
    · rw [shrink_id h.red]
      refine ⟨?_, h'⟩
      rw [← h.sum]; exact span_nonneg (Path.pos h.path)
  unfold attempt
  refine Act.bind_congr h2 h1 fun s h => ?_
  refine Act.bind_congr (quick1_same hr h) (quick1_sat h) fun s h => ?_
  obtain ⟨y, hm, -⟩ := id h
  refine Act.bind_congr (trial_same hr hm (by norm_num) (by norm_num))
    ((trial1_sat h).and (trial_tm hm (by norm_num) (by norm_num))) fun s h => ?_
  refine Act.bind_congr rfl ((store2_sat h.1).and (check_tm (by exact h.2))) fun s h => ?_
  refine Act.bind_congr (quick2_same hr h.1 h.2) ((quick2_sat h.1).and (quick2_tm h.2)) fun s h => ?_
  obtain ⟨⟨y, hm, -⟩, -⟩ := id h.1
  refine Act.bind_congr (trial_same hr hm (by norm_num) (by norm_num))
    ((trial2_sat h.1).and (trial_tm hm (by norm_num) (by norm_num))) fun s h => ?_
  refine Act.bind_congr rfl ((store3_sat h.1).and (check_tm (by exact h.2))) fun s h => ?_
  refine Act.bind_congr (quick3_same hr h.1 h.2) ((quick3_sat h.1).and (quick3_tm h.2)) fun s h => ?_
  obtain ⟨y, hm, -⟩ := id h.1
  refine Act.bind_congr (trial_same hr hm (by norm_num) (by norm_num))
    ((trial3_sat h.1).and (trial_tm hm (by norm_num) (by norm_num))) fun s h => ?_
  refine Act.bind_congr rfl ((store4_sat h.1).and (check_tm (by exact h.2))) fun s h => ?_
  obtain ⟨y, hm, -⟩ := id h.1
  refine Act.bind_congr (trial_same hr hm (by norm_num) (by norm_num))
    ((trial4_sat h.1).and (trial_tm hm (by norm_num) (by norm_num))) fun s h => ?_
  refine Act.bind_congr rfl ((store5_sat h.1).and (check_tm (by exact h.2))) fun s h => ?_
  obtain ⟨y, hm, -⟩ := id h.1
  exact Act.bind_congr (trial_same hr hm (by norm_num) (by norm_num))
    ((trial5_sat h.1).and (trial_tm hm (by norm_num) (by norm_num))) fun s h => judge_same hr h.1 h.2

theorem drive_same (hP : Fair X.P) (hr : Same X.P X.c.rates r') (k : Nat) (top : Bool) (s : St n κ σ π ρ)
    (h : if top then Tu X s else Ag X s) :
    drive X.c X.P k top s = drive ⟨r', X.c.run, X.c.save⟩ X.P k top s := by
  induction k generalizing top s with
  | zero => rfl
  | succ k ih =>
    unfold drive
    have step : (Ag X s ∨ (∃ y, Bad X y s) ∨ ∃ y, Fresh X y s ∧ 0 < s.h ∧ s.hSum + s.h ≤ X.P.kin) →
        (match attempt X.c X.P s with
          | .go s => Res.ok s
          | .again s => drive X.c X.P k false s
          | .turn s => drive X.c X.P k true s
          | .quit s => .ok s
          | .err => .err) =
        (match attempt ⟨r', X.c.run, X.c.save⟩ X.P s with
          | .go s => Res.ok s
          | .again s => drive ⟨r', X.c.run, X.c.save⟩ X.P k false s
          | .turn s => drive ⟨r', X.c.run, X.c.save⟩ X.P k true s
          | .quit s => .ok s
          | .err => .err) := by
      intro hk
      have := attempt_sat hP hk
      rw [attempt_same hr hk] at this ⊢
      generalize attempt ⟨r', X.c.run, X.c.save⟩ X.P s = a at *
      cases a with
      | go s => exact this.elim
      | again s => exact ih false s (by rw [if_neg (by simp)]; exact this)
      | turn s => exact ih true s (by rw [if_pos rfl]; exact this)
      | quit s => rfl
      | err => rfl
    cases top with
    | false =>
      simp only [Bool.false_eq_true, false_and, if_false] at h ⊢
      exact step (.inl h)
    | true =>
      simp only [true_and, if_true] at h ⊢
      split_ifs with h1 h2
      · rfl
      · rfl
      · refine step ?_
        obtain ⟨y, h | h⟩ := h
        · rcases h.room with hr | hr
          · exact absurd hr.ge h1
          · exact .inr (.inr ⟨y, h, hr⟩)
        · exact .inr (.inl ⟨y, h⟩)

theorem integrate_same {c : Chem n κ σ π ρ} {P : Par n} (hP : Fair P) {r' : κ → V n → ℚ → ℚ → Option (V n)}
    (hr : Same P c.rates r') (k rk : Nat) (m : V n) (old : κ) (cell : Cell σ π ρ) :
    integrate c P k rk m old cell = integrate ⟨r', c.run, c.save⟩ P k rk m old cell := by
  have hb : begin c P rk m old cell = begin ⟨r', c.run, c.save⟩ P rk m old cell := rfl
  unfold integrate
  rw [← hb]
  cases h : begin c P rk m old cell with
  | err => rfl
  | more => rfl
  | ok s =>
    obtain ⟨x, -, hf⟩ := begin_fresh hP h
    dsimp only
    rw [drive_same (X := ⟨c, P, decide (order rk = 1), decide (order rk = 2),
        decide (order rk = 6 ∨ 1 < P.divide), x, m⟩) hP hr k true s (by rw [if_pos rfl]; exact ⟨x, .inl hf⟩)]
    rfl

end Verif.Kinetics
