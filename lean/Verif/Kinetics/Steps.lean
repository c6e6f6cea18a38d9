import Verif.Kinetics.Spec
import Mathlib.Tactic.Ring
import Mathlib.Tactic.Linarith
import Mathlib.Tactic.FieldSimp
import Mathlib.Tactic.Positivity

/-!
# The loop takes steps of the specification
-/

namespace Verif.Kinetics

open Spec

variable {n : Nat} {κ σ π ρ : Type}

/-- What holds at each way out of a piece of the loop. -/
def Act.Sat {α : Type} (a : Act α) (G A T Q : α → Prop) : Prop :=
  match a with
  | .go s => G s
  | .again s => A s
  | .turn s => T s
  | .quit s => Q s
  | .err => True

theorem Act.Sat.bind {α : Type} {a : Act α} {f : α → Act α} {G G' A T Q : α → Prop} (h : a.Sat G A T Q)
    (hf : ∀ s, G s → (f s).Sat G' A T Q) : (a.bind f).Sat G' A T Q := by
  cases a <;> simp only [Act.bind, Act.Sat] at * <;> first | exact h | exact hf _ h | trivial

theorem limit_eq (m w : V n) : limit m w = atMost m w := by
  funext j
  simp only [limit, atMost]
  split_ifs with h
  · exact (min_eq_left h.le).symm
  · exact (min_eq_right (not_lt.1 h)).symm

theorem left_eq (m v : V n) : left m v = rest m v := rfl

/-- Parameters of the invariant. -/
structure Ctx (n : Nat) (κ σ π ρ : Type) where
  c : Chem n κ σ π ρ
  P : Par n
  one : Bool
  two : Bool
  full : Bool
  x0 : κ
  m0 : V n

/-- The reasonable parameters of the method. -/
structure Fair (P : Par n) : Prop where
  kin : 0 < P.kin
  divide : 0 < P.divide
  tol : ∀ j, 0 < P.tol j
  p4 : ∀ e, 1 < e → 0 < P.p4 e ∧ P.p4 e ≤ 1
  p5 : ∀ e, 0 < e → 0 < P.p5 e

/-- What holds while a step from the result `y` is tried; `hk` is the length for which `k1` was made. -/
structure Core (X : Ctx n κ σ π ρ) (y : κ) (s : St n κ σ π ρ) (hk : ℚ) : Prop where
  path : Path X.c (May X.c X.P.tol X.one) X.P.start X.x0 X.m0 s.steps y s.mT
  sum : span s.steps = s.hSum
  pos : 0 < s.h
  le : s.hSum + s.h ≤ X.P.kin
  eqh : s.eq = true → s.h = X.P.kin ∧ s.hSum = 0 ∧ s.steps = []
  main : s.cell.main = (X.c.save y).main
  pp : s.ppS = (X.c.save y).pp
  ss : s.ssS = (X.c.save y).ss
  rks : s.rk = 1 ∨ s.rk = 2 ∨ s.rk = 3 ∨ s.rk = 6
  r6 : s.rk = 6 → s.eq = false
  r1 : X.one = false → s.rk ≠ 1
  r2 : X.two = false → s.rk ≠ 2
  full : X.full = true → s.eq = false
  six : ∀ st ∈ s.steps, st.evals = 6
  hk0 : 0 < hk
  k1 : ∃ h' r, hk ≤ h' ∧ X.c.rates y s.mT (X.P.start + s.hSum) h' = some r ∧
    (s.k1 = fun j => r j * (hk / h')) ∧ (s.eq = true → h' = hk)
  clean : s.eq = true ∨ X.one = false → s.cell = X.c.save y

theorem Core.of {X : Ctx n κ σ π ρ} {y : κ} {s s' : St n κ σ π ρ} {hk : ℚ} (h : Core X y s hk)
    (e1 : s'.steps = s.steps := by rfl) (e2 : s'.mT = s.mT := by rfl) (e3 : s'.hSum = s.hSum := by rfl)
    (e4 : s'.h = s.h := by rfl) (e5 : s'.cell.main = s.cell.main := by rfl) (e6 : s'.ppS = s.ppS := by rfl)
    (e7 : s'.ssS = s.ssS := by rfl) (e8 : s'.rk = s.rk := by rfl) (e9 : s'.eq = true → s.eq = true)
    (e10 : s'.k1 = s.k1 := by rfl)
    (e11 : s'.eq = true ∨ X.one = false → s'.cell = X.c.save y) : Core X y s' hk where
  path := by rw [e1, e2]; exact h.path
  sum := by rw [e1, e3]; exact h.sum
  pos := by rw [e4]; exact h.pos
  le := by rw [e3, e4]; exact h.le
  eqh := fun e => by rw [e1, e3, e4]; exact h.eqh (e9 e)
  main := by rw [e5]; exact h.main
  pp := by rw [e6]; exact h.pp
  ss := by rw [e7]; exact h.ss
  rks := by rw [e8]; exact h.rks
  r6 := fun e => by
    have := h.r6 (e8 ▸ e)
    cases e' : s'.eq
    · rfl
    · rw [e9 e'] at this; cases this
  r1 := by rw [e8]; exact h.r1
  r2 := by rw [e8]; exact h.r2
  six := by rw [e1]; exact h.six
  full := fun e => by
    have := h.full e
    cases e' : s'.eq
    · rfl
    · rw [e9 e'] at this; cases this
  hk0 := h.hk0
  k1 := by
    obtain ⟨h', r, a, b, d, e⟩ := h.k1
    exact ⟨h', r, a, by rw [e2, e3]; exact b, by rw [e10]; exact d, fun z => e (e9 z)⟩
  clean := e11

/-- Within a turn. -/
structure Mid (X : Ctx n κ σ π ρ) (y : κ) (s : St n κ σ π ρ) : Prop where
  core : Core X y s s.h
  bad : s.bad = false
  red : s.red ≤ 1

/-- At `MOLES_TOO_LARGE`. -/
structure Over (X : Ctx n κ σ π ρ) (y : κ) (s : St n κ σ π ρ) : Prop where
  core : Core X y s s.h
  red : 1 < s.red

/-- After the step was made smaller. -/
structure Bad (X : Ctx n κ σ π ρ) (y : κ) (s : St n κ σ π ρ) : Prop where
  core : Core X y s s.hOld
  bad : s.bad = true
  red : s.red ≤ 1
  eq : s.eq = false
  le : s.h ≤ s.hOld

/-- At the head of the loop after a step that was taken. -/
structure Fresh (X : Ctx n κ σ π ρ) (y : κ) (s : St n κ σ π ρ) : Prop where
  path : Path X.c (May X.c X.P.tol X.one) X.P.start X.x0 X.m0 s.steps y s.m
  sum : span s.steps = s.hSum
  room : s.hSum = X.P.kin ∨ (0 < s.h ∧ s.hSum + s.h ≤ X.P.kin)
  eqh : s.eq = true → s.h = X.P.kin ∧ s.hSum = 0 ∧ s.steps = []
  cur : s.cur = y
  cell : s.cell = X.c.save y
  rks : s.rk = 1 ∨ s.rk = 2 ∨ s.rk = 3 ∨ s.rk = 6
  r6 : s.rk = 6 → s.eq = false
  r1 : X.one = false → s.rk ≠ 1
  r2 : X.two = false → s.rk ≠ 2
  full : X.full = true → s.eq = false
  six : ∀ st ∈ s.steps, st.evals = 6
  bad : s.bad = false
  red : s.red ≤ 1

/-- At the end. -/
structure Done (X : Ctx n κ σ π ρ) (y : κ) (s : St n κ σ π ρ) : Prop where
  path : Path X.c (May X.c X.P.tol X.one) X.P.start X.x0 X.m0 s.steps y s.m
  sum : span s.steps = X.P.kin
  cur : s.cur = y
  main : s.cell.main = (X.c.save y).main
  pp : s.cell.pp = (X.c.save y).pp
  cell : X.two = false → s.cell = X.c.save y
  lone : (∀ st ∈ s.steps, st.evals = 6) ∨ X.full = false ∧ ∃ st, s.steps = [st]

/-- The ways out of a turn. -/
def Ag (X : Ctx n κ σ π ρ) (s : St n κ σ π ρ) : Prop := ∃ y, Over X y s
/-- The head of the loop. -/
def Tu (X : Ctx n κ σ π ρ) (s : St n κ σ π ρ) : Prop := ∃ y, Fresh X y s ∨ Bad X y s
/-- The end. -/
def Qu (X : Ctx n κ σ π ρ) (s : St n κ σ π ρ) : Prop := ∃ y, Done X y s

theorem span_append (l : List (Step n)) (st : Step n) : span (l ++ [st]) = span l + st.h := by
  simp [span]

/-- `shrink`. -/
theorem shrink_over {X : Ctx n κ σ π ρ} {y : κ} {s : St n κ σ π ρ} (h : Over X y s) : Bad X y (shrink s) := by
  have hr := h.red
  have hp := h.core.pos
  have hl : 7 / 10 * s.h / (1 + s.red) ≤ s.h := by
    rw [div_le_iff₀ (by linarith)]
    nlinarith
  simp only [shrink, if_pos hr]
  refine ⟨?_, rfl, le_refl _, rfl, hl⟩
  have hc := h.core
  exact
    { path := hc.path, sum := hc.sum, pos := by
        show (0 : ℚ) < 7 / 10 * s.h / (1 + s.red)
        apply div_pos <;> linarith
      le := by
        show s.hSum + 7 / 10 * s.h / (1 + s.red) ≤ _
        linarith [hc.le]
      eqh := fun e => by cases e
      main := hc.main, pp := hc.pp, ss := hc.ss, rks := hc.rks, r6 := fun _ => rfl, r1 := hc.r1, r2 := hc.r2
      six := hc.six, full := fun _ => rfl
      hk0 := hc.pos
      k1 := by
        obtain ⟨h', r, a, b, d, -⟩ := hc.k1
        exact ⟨h', r, a, b, d, fun e => by cases e⟩
      clean := fun e => by
        rcases e with e | e
        · cases e
        · exact hc.clean (.inr e) }

theorem shrink_id {s : St n κ σ π ρ} (h : s.red ≤ 1) : shrink s = s := by
  simp [shrink, not_lt.2 h]

/-- After the first evaluation. -/
def F1 (X : Ctx n κ σ π ρ) (s : St n κ σ π ρ) : Prop :=
  ∃ y, Mid X y s ∧ (s.moles = fun j => s.k1 j * (1 / 5)) ∧
    (s.eq = true → s.cur = y ∧ s.m = s.mT ∧ s.time = X.P.start + s.hSum)

theorem first_bad {X : Ctx n κ σ π ρ} {y : κ} {s : St n κ σ π ρ} (h : Bad X y s) :
    (first X.c X.P s).Sat (F1 X) (Ag X) (Tu X) (Qu X) := by
  have hc := h.core
  simp only [first, h.bad, if_true, Act.Sat]
  refine ⟨y, ⟨?_, rfl, h.red⟩, rfl, fun e => ?_⟩
  · exact
      { path := hc.path, sum := hc.sum, pos := hc.pos, le := hc.le, eqh := hc.eqh, main := hc.main, pp := hc.pp
        ss := hc.ss, rks := hc.rks, r6 := hc.r6, r1 := hc.r1, r2 := hc.r2, six := hc.six, full := hc.full, hk0 := hc.pos
        k1 := by
          obtain ⟨h', r, a, b, d, -⟩ := hc.k1
          have ho := hc.hk0
          refine ⟨h', r, le_trans h.le a, b, ?_, fun e => ?_⟩
          · show (fun j => s.k1 j * (s.h / s.hOld)) = _
            rw [d]
            funext j
            show r j * (s.hOld / h') * (s.h / s.hOld) = r j * (s.h / h')
            have : s.hOld ≠ 0 := ne_of_gt ho
            field_simp
          · have e' : s.eq = true := e
            rw [h.eq] at e'; cases e'
        clean := hc.clean }
  · have e' : s.eq = true := e
    rw [h.eq] at e'; cases e'

theorem check_sat {X : Ctx n κ σ π ρ} {s : St n κ σ π ρ} {G : St n κ σ π ρ → Prop}
    (ha : 1 < s.red → Ag X s) (hg : s.red ≤ 1 → G s) : (check s).Sat G (Ag X) (Tu X) (Qu X) := by
  unfold check
  split_ifs with h
  · exact ha h
  · exact hg (not_lt.1 h)

theorem first_fresh {X : Ctx n κ σ π ρ} {y : κ} {s : St n κ σ π ρ} (h : Fresh X y s)
    (hh : 0 < s.h ∧ s.hSum + s.h ≤ X.P.kin) :
    (first X.c X.P s).Sat (F1 X) (Ag X) (Tu X) (Qu X) := by
  simp only [first, h.bad, Bool.false_eq_true, if_false, rate]
  cases hr : X.c.rates s.cur s.m (X.P.start + s.hSum) s.h with
  | none => simp only [Act.bind, Act.Sat]
  | some v =>
    simp only [Act.bind]
    have hc : ∀ (red : ℚ) (ml : V n), Core X y
        { s with ppS := s.cell.pp, ssS := s.cell.ss, mT := s.m, time := X.P.start + s.hSum,
                 red := red, k1 := 0 + v, moles := ml, bad := false } s.h := fun red ml =>
      { path := h.path, sum := h.sum, pos := hh.1, le := hh.2, eqh := h.eqh
        main := by rw [← h.cell], pp := by rw [← h.cell], ss := by rw [← h.cell]
        rks := h.rks, r6 := h.r6, r1 := h.r1, r2 := h.r2, six := h.six, full := h.full, hk0 := hh.1
        k1 := ⟨s.h, v, le_refl _, by rw [← h.cur]; exact hr, by
          funext j
          show (0 + v) j = v j * (s.h / s.h)
          rw [div_self (ne_of_gt hh.1)]
          simp, fun _ => rfl⟩
        clean := fun _ => h.cell }
    apply check_sat
    · intro hr
      exact ⟨y, hc _ _, hr⟩
    · intro hr
      exact ⟨y, ⟨hc _ _, rfl, hr⟩, rfl, fun _ => ⟨h.cur, rfl, rfl⟩⟩

theorem cell_eta (a : Cell σ π ρ) (p : π) (q : ρ) (m : σ) (h1 : m = a.main) (h2 : p = a.pp) (h3 : q = a.ss) :
    (⟨m, p, q⟩ : Cell σ π ρ) = a := by
  subst h1 h2 h3; rfl

/-- The state after an evaluation. -/
def after (X : Ctx n κ σ π ρ) (y : κ) (f : ℚ) (s : St n κ σ π ρ) (x : κ) (k : V n) : St n κ σ π ρ :=
  { s with m := s.mT - atMost s.mT s.moles, moles := k, cur := x, time := X.P.start + s.hSum + f * s.h
           cell := X.c.save y }

theorem trial_sat {X : Ctx n κ σ π ρ} {y : κ} {s : St n κ σ π ρ} (h : Mid X y s) (f : ℚ)
    {G : St n κ σ π ρ → Prop}
    (hg : ∀ x p q k, X.c.run s.cell (atMost s.mT s.moles) = .ok x p q →
      X.c.rates x (s.mT - atMost s.mT s.moles) (X.P.start + s.hSum + f * s.h) s.h = some k →
      G (after X y f s x k)) :
    (trial X.c X.P f s).Sat G (Ag X) (Tu X) (Qu X) := by
  simp only [trial, react, limit_eq]
  cases hr : X.c.run s.cell (atMost s.mT s.moles) with
  | fail => simp only [Act.bind, Act.Sat]
  | balance =>
    simp only [Act.bind, Act.Sat]
    refine ⟨y, ?_, ?_⟩
    · exact h.core.of (e9 := fun e => e) (e11 := h.core.clean)
    · show (1 : ℚ) < 9
      norm_num
  | ok x p q =>
    simp only [Act.bind, rate]
    cases hk : X.c.rates x (s.mT - atMost s.mT s.moles) (X.P.start + s.hSum + f * s.h) s.h with
    | none => simp only [Act.Sat]
    | some k =>
      simp only [Act.Sat, reset]
      have := hg x p q k hr hk
      simp only [after] at this
      rw [zero_add, cell_eta (X.c.save y) s.ppS s.ssS s.cell.main h.core.main h.core.pp h.core.ss]
      exact this

theorem Mid.after {X : Ctx n κ σ π ρ} {y : κ} {s : St n κ σ π ρ} (h : Mid X y s) (f : ℚ) (x : κ) (k : V n) :
    Mid X y (after X y f s x k) :=
  ⟨h.core.of (e5 := h.core.main.symm) (e9 := fun e => e) (e11 := fun _ => rfl), h.bad, h.red⟩

/-- A finished step: the result and the state. -/
theorem finish_sat {X : Ctx n κ σ π ρ} {y : κ} {s : St n κ σ π ρ} (h : Mid X y s) (b : Nat)
    {G : St n κ σ π ρ → Prop}
    (hg : ∀ x p q k, X.c.run s.cell (atMost s.mT s.moles) = .ok x p q →
      X.c.rates x (rest s.mT (atMost s.mT s.moles)) s.time s.h = some k →
      G { s with
        m := rest s.mT (atMost s.mT s.moles)
        moles := k
        cur := x
        cell := ⟨s.cell.main, p, q⟩
        steps := s.steps ++ [⟨b, s.h, atMost s.mT s.moles, s.mT, rest s.mT (atMost s.mT s.moles)⟩]
        eq := s.eq && near X.P.tol s.k1 k }) :
    (finish X.c X.P b s).Sat G (Ag X) (Tu X) (Qu X) := by
  simp only [finish, limit_eq, left_eq]
  cases hr : X.c.run s.cell (atMost s.mT s.moles) with
  | fail => simp only [Act.Sat]
  | balance =>
    simp only [Act.Sat]
    refine ⟨y, ?_, ?_⟩
    · exact h.core.of (e9 := fun e => e) (e11 := h.core.clean)
    · show (1 : ℚ) < 9
      norm_num
  | ok x p q =>
    simp only [rate]
    cases hk : X.c.rates x (rest s.mT (atMost s.mT s.moles)) s.time s.h with
    | none => simp only [Act.bind, Act.Sat]
    | some k =>
      simp only [Act.bind, Act.Sat]
      rw [zero_add]
      exact hg x p q k hr hk

theorem near_iff {tol a b : V n} : near tol a b = true ↔ Close tol a b := by
  simp [near, Close]

/-- The result of the second evaluation. -/
def E2 (X : Ctx n κ σ π ρ) (y : κ) (s : St n κ σ π ρ) (k : V n) : Prop :=
  ∃ B, B.main = (X.c.save y).main ∧ (s.eq = true ∨ X.one = false → B = X.c.save y) ∧
    Eval X.c B s.mT (fun j => s.k1 j * (1 / 5)) (X.P.start + s.hSum + 1 / 5 * s.h) s.h k

/-- Before the second evaluation. -/
def F2 (X : Ctx n κ σ π ρ) (s : St n κ σ π ρ) : Prop :=
  ∃ y, Mid X y s ∧ (s.moles = fun j => s.k1 j * (1 / 5)) ∧ ¬ (s.rk = 1 ∧ s.eq = true)

theorem quick1_sat {X : Ctx n κ σ π ρ} {s : St n κ σ π ρ} (h : F1 X s) :
    (quick1 X.c X.P s).Sat (F2 X) (Ag X) (Tu X) (Qu X) := by
  obtain ⟨y, hm, hl, hy⟩ := h
  unfold quick1
  split_ifs with h1 h2
  · -- zero
    obtain ⟨hr, he⟩ := h1
    obtain ⟨hcur, hmm, -⟩ := hy he
    obtain ⟨h', r, -, hk, hk1, hh⟩ := hm.core.k1
    have hh' := hh he
    subst hh'
    have hk1' : s.k1 = r := by
      rw [hk1]
      funext j
      rw [div_self (ne_of_gt hm.core.pos), mul_one]
    have hz : Zero X.c y s.mT (X.P.start + span s.steps) s.h 0 := by
      refine ⟨r, by rw [hm.core.sum]; exact hk, ?_, rfl⟩
      rw [← hk1']
      exact h2
    have hcell : X.c.save s.cur = X.c.save y := by rw [hcur]
    simp only [Act.Sat, keep]
    refine ⟨y, ?_, ?_, hcur, ?_, ?_, fun _ => hcell, ?_⟩
    · show Path _ _ _ _ _ (s.steps ++ [⟨0, s.h, 0, s.mT, s.m⟩]) y s.m
      rw [hmm]
      exact hm.core.path.zero hm.core.pos (.inl ⟨rfl, hz⟩)
    · show span (s.steps ++ [_]) = _
      rw [span_append, hm.core.sum, (hm.core.eqh he).2.1]
      show 0 + s.h = _
      rw [(hm.core.eqh he).1, zero_add]
    · show (X.c.save s.cur).main = _
      rw [hcell]
    · show (X.c.save s.cur).pp = _
      rw [hcell]
    · refine .inr ⟨?_, _, by rw [(hm.core.eqh he).2.2]; rfl⟩
      cases hf : X.full
      · rfl
      · rw [hm.core.full hf] at he; cases he
  · obtain ⟨hr, he⟩ := h1
    have hcl := hm.core.clean (.inl he)
    obtain ⟨h', r, -, hk, hk1, hh⟩ := hm.core.k1
    have hh' := hh he
    subst hh'
    have hk1' : s.k1 = r := by
      rw [hk1]
      funext j
      rw [div_self (ne_of_gt hm.core.pos), mul_one]
    have hm' : Mid X y { s with moles := s.k1 } :=
      ⟨hm.core.of (e9 := fun e => e) (e11 := hm.core.clean), hm.bad, hm.red⟩
    refine (finish_sat hm' 1 (G := fun s' => ∃ x p q k,
      X.c.run s.cell (atMost s.mT s.k1) = .ok x p q ∧
      X.c.rates x (rest s.mT (atMost s.mT s.k1)) s.time s.h = some k ∧
      s' = { s with
        m := rest s.mT (atMost s.mT s.k1)
        moles := k
        cur := x
        cell := ⟨s.cell.main, p, q⟩
        steps := s.steps ++ [⟨1, s.h, atMost s.mT s.k1, s.mT, rest s.mT (atMost s.mT s.k1)⟩]
        eq := s.eq && near X.P.tol s.k1 k }) ?_).bind ?_
    · intro x p q k a b
      exact ⟨x, p, q, k, a, b, rfl⟩
    · rintro s' ⟨x, p, q, k, a, b, rfl⟩
      dsimp only
      split_ifs with hq
      · have hc : Close X.P.tol s.k1 k := by
          rw [← near_iff]
          simpa [he] using hq
        rw [hcl] at a
        simp only [Act.Sat, keep]
        refine ⟨x, ?_, ?_, rfl, rfl, rfl, fun _ => rfl, ?_⟩
        · refine hm.core.path.step hm.core.pos (by decide) (.inr (.inl ⟨rfl, ?_⟩)) a
          rw [hm.core.sum]
          exact ⟨r, k, x, p, q, hk, by rw [hk1'], a, by rw [← (hy he).2.2]; exact b, by rw [← hk1']; exact hc⟩
        · show span (s.steps ++ [_]) = _
          rw [span_append, hm.core.sum, (hm.core.eqh he).2.1]
          show 0 + s.h = _
          rw [(hm.core.eqh he).1, zero_add]
        · refine .inr ⟨?_, _, by rw [(hm.core.eqh he).2.2]; rfl⟩
          cases hf : X.full
          · rfl
          · rw [hm.core.full hf] at he; cases he
      · have hq' : (s.eq && near X.P.tol s.k1 k) = false := by simpa using hq
        simp only [Act.Sat, forget]
        refine ⟨y, ⟨?_, hm.bad, hm.red⟩, ?_, fun e => ?_⟩
        · have hc := hm.core
          exact
            { path := hc.path, sum := hc.sum, pos := hc.pos, le := hc.le
              eqh := fun e => by rw [hq'] at e; cases e
              main := hc.main, pp := hc.pp, ss := hc.ss, rks := .inr (.inr (.inl rfl)), r6 := fun _ => hq'
              r1 := fun _ => by simp, r2 := fun _ => by simp, six := hc.six, full := fun _ => hq'
              hk0 := hc.hk0
              k1 := by
                obtain ⟨h', r, a, b, d, e⟩ := hc.k1
                exact ⟨h', r, a, b, d, fun z => by rw [hq'] at z; cases z⟩
              clean := fun e => by
                rcases e with e | e
                · rw [hq'] at e; cases e
                · exact absurd hr (hc.r1 e) }
        · funext j
          show 1 / 5 * s.k1 j = s.k1 j * (1 / 5)
          ring
        · have := e.2
          rw [hq'] at this; cases this
  · exact ⟨y, hm, hl, h1⟩

/-- The third evaluation. -/
def E3 (X : Ctx n κ σ π ρ) (y : κ) (s : St n κ σ π ρ) (k : V n) : Prop :=
  Eval X.c (X.c.save y) s.mT (fun j => 3 / 40 * s.k1 j + 9 / 40 * s.k2 j)
    (X.P.start + s.hSum + 3 / 10 * s.h) s.h k

/-- The fourth evaluation. -/
def E4 (X : Ctx n κ σ π ρ) (y : κ) (s : St n κ σ π ρ) (k : V n) : Prop :=
  Eval X.c (X.c.save y) s.mT (fun j => 3 / 10 * s.k1 j - 9 / 10 * s.k2 j + 6 / 5 * s.k3 j)
    (X.P.start + s.hSum + 3 / 5 * s.h) s.h k

/-- The fifth evaluation. -/
def E5 (X : Ctx n κ σ π ρ) (y : κ) (s : St n κ σ π ρ) (k : V n) : Prop :=
  Eval X.c (X.c.save y) s.mT (fun j => -11 / 54 * s.k1 j + 5 / 2 * s.k2 j - 70 / 27 * s.k3 j + 35 / 27 * s.k4 j)
    (X.P.start + s.hSum + 1 * s.h) s.h k

/-- The sixth evaluation. -/
def E6 (X : Ctx n κ σ π ρ) (y : κ) (s : St n κ σ π ρ) (k : V n) : Prop :=
  Eval X.c (X.c.save y) s.mT (fun j => 1631 / 55296 * s.k1 j + 175 / 512 * s.k2 j + 575 / 13824 * s.k3 j +
    44275 / 110592 * s.k4 j + 253 / 4096 * s.k5 j) (X.P.start + s.hSum + 7 / 8 * s.h) s.h k

/-- After the second evaluation. -/
def G2 (X : Ctx n κ σ π ρ) (s : St n κ σ π ρ) : Prop :=
  ∃ y, Mid X y s ∧ s.cell = X.c.save y ∧ E2 X y s s.moles ∧ ¬ (s.rk = 1 ∧ s.eq = true)

theorem trial1_sat {X : Ctx n κ σ π ρ} {s : St n κ σ π ρ} (h : F2 X s) :
    (trial X.c X.P (1 / 5) s).Sat (G2 X) (Ag X) (Tu X) (Qu X) := by
  obtain ⟨y, hm, hl, hn⟩ := h
  refine trial_sat hm _ fun x p q k a b => ⟨y, hm.after _ _ _, rfl, ?_, hn⟩
  rw [hl] at a b
  exact ⟨s.cell, hm.core.main, hm.core.clean, x, p, q, a, b⟩

/-- After the second evaluation was stored. -/
def G3 (X : Ctx n κ σ π ρ) (s : St n κ σ π ρ) : Prop :=
  ∃ y, Mid X y s ∧ s.cell = X.c.save y ∧ E2 X y s s.k2 ∧ ¬ (s.rk = 1 ∧ s.eq = true) ∧
    (s.eq = true → Close X.P.tol s.k1 s.k2) ∧ (s.moles = fun j => 3 / 40 * s.k1 j + 9 / 40 * s.k2 j)

theorem store2_sat {X : Ctx n κ σ π ρ} {s : St n κ σ π ρ} (h : G2 X s) :
    (store2 X.P s).Sat (G3 X) (Ag X) (Tu X) (Qu X) := by
  obtain ⟨y, hm, hcl, h2, hn⟩ := h
  have he : (s.eq && near X.P.tol s.k1 s.moles) = true → s.eq = true := fun e => by
    rw [Bool.and_eq_true] at e; exact e.1
  refine check_sat (fun hr => ⟨y, ?_, hr⟩) (fun hr => ⟨y, ⟨?_, hm.bad, hr⟩, hcl, ?_, ?_, ?_, rfl⟩)
  · exact hm.core.of (e9 := he) (e11 := fun _ => hcl)
  · exact hm.core.of (e9 := he) (e11 := fun _ => hcl)
  · obtain ⟨B, a, b, d⟩ := h2
    exact ⟨B, a, fun e => b (e.imp he id), d⟩
  · exact fun e => hn ⟨e.1, he e.2⟩
  · intro e
    rw [Bool.and_eq_true] at e
    exact near_iff.1 e.2

/-- Before the third evaluation. -/
def H3 (X : Ctx n κ σ π ρ) (s : St n κ σ π ρ) : Prop := G3 X s ∧ ¬ (s.rk = 2 ∧ s.eq = true)

theorem quick2_sat {X : Ctx n κ σ π ρ} {s : St n κ σ π ρ} (h : G3 X s) :
    (quick2 X.c X.P s).Sat (H3 X) (Ag X) (Tu X) (Qu X) := by
  unfold quick2
  split_ifs with h1
  · obtain ⟨hr, he⟩ := h1
    obtain ⟨y, hm, hcl, h2, hn, hq, hl⟩ := h
    obtain ⟨h', r, -, hk, hk1, hh⟩ := hm.core.k1
    have hh' := hh he
    subst hh'
    have hk1' : s.k1 = r := by
      rw [hk1]
      funext j
      rw [div_self (ne_of_gt hm.core.pos), mul_one]
    have hm' : Mid X y { s with moles := fun j => 3 / 10 * s.k1 j + 7 / 10 * s.k2 j } :=
      ⟨hm.core.of (e9 := fun e => e) (e11 := hm.core.clean), hm.bad, hm.red⟩
    refine (finish_sat hm' 2 (G := fun s' => ∃ x p q k e,
      X.c.run s.cell (atMost s.mT (fun j => 3 / 10 * s.k1 j + 7 / 10 * s.k2 j)) = .ok x p q ∧
      s' = { s with
        m := rest s.mT (atMost s.mT (fun j => 3 / 10 * s.k1 j + 7 / 10 * s.k2 j))
        moles := k
        cur := x
        cell := ⟨s.cell.main, p, q⟩
        steps := s.steps ++ [⟨2, s.h, atMost s.mT (fun j => 3 / 10 * s.k1 j + 7 / 10 * s.k2 j), s.mT,
          rest s.mT (atMost s.mT (fun j => 3 / 10 * s.k1 j + 7 / 10 * s.k2 j))⟩]
        eq := e }) ?_).bind ?_
    · intro x p q k a b
      exact ⟨x, p, q, k, _, a, rfl⟩
    · rintro s' ⟨x, p, q, k, e, a, rfl⟩
      rw [hcl] at a
      simp only [Act.Sat, keep]
      refine ⟨x, ?_, ?_, rfl, rfl, rfl, fun e => absurd hr (hm.core.r2 e), ?_⟩
      · refine hm.core.path.step hm.core.pos (by decide) (.inr (.inr (.inl ⟨rfl, ?_⟩))) a
        rw [hm.core.sum]
        obtain ⟨B, -, hB, hE⟩ := h2
        rw [hB (.inl he)] at hE
        rw [← hk1'] at hk
        exact ⟨s.k1, s.k2, hk, hE, hq he, rfl⟩
      · show span (s.steps ++ [_]) = _
        rw [span_append, hm.core.sum, (hm.core.eqh he).2.1]
        show 0 + s.h = _
        rw [(hm.core.eqh he).1, zero_add]
      · refine .inr ⟨?_, _, by rw [(hm.core.eqh he).2.2]; rfl⟩
        cases hf : X.full
        · rfl
        · rw [hm.core.full hf] at he; cases he
  · exact ⟨h, h1⟩

/-- After the third evaluation. -/
def I3 (X : Ctx n κ σ π ρ) (s : St n κ σ π ρ) : Prop :=
  ∃ y, Mid X y s ∧ s.cell = X.c.save y ∧ E2 X y s s.k2 ∧ E3 X y s s.moles ∧ ¬ (s.rk = 1 ∧ s.eq = true) ∧
    ¬ (s.rk = 2 ∧ s.eq = true) ∧ (s.eq = true → Close X.P.tol s.k1 s.k2)

theorem trial2_sat {X : Ctx n κ σ π ρ} {s : St n κ σ π ρ} (h : H3 X s) :
    (trial X.c X.P (3 / 10) s).Sat (I3 X) (Ag X) (Tu X) (Qu X) := by
  obtain ⟨⟨y, hm, hcl, h2, hn, hq, hl⟩, hn'⟩ := h
  refine trial_sat hm _ fun x p q k a b => ⟨y, hm.after _ _ _, rfl, h2, ?_, hn, hn', hq⟩
  rw [hl] at a b
  rw [hcl] at a
  exact ⟨x, p, q, a, b⟩

/-- After the third evaluation was stored. -/
def J3 (X : Ctx n κ σ π ρ) (s : St n κ σ π ρ) : Prop :=
  ∃ y, Mid X y s ∧ s.cell = X.c.save y ∧ E2 X y s s.k2 ∧ E3 X y s s.k3 ∧ ¬ (s.rk = 1 ∧ s.eq = true) ∧
    ¬ (s.rk = 2 ∧ s.eq = true) ∧ (s.eq = true → Close X.P.tol s.k1 s.k2 ∧ Close X.P.tol s.k1 s.k3) ∧
    (s.moles = fun j => 3 / 10 * s.k1 j - 9 / 10 * s.k2 j + 6 / 5 * s.k3 j)

theorem store3_sat {X : Ctx n κ σ π ρ} {s : St n κ σ π ρ} (h : I3 X s) :
    (store3 X.P s).Sat (J3 X) (Ag X) (Tu X) (Qu X) := by
  obtain ⟨y, hm, hcl, h2, h3, hn, hn', hq⟩ := h
  have he : (s.eq && near X.P.tol s.k1 s.moles) = true → s.eq = true := fun e => by
    rw [Bool.and_eq_true] at e; exact e.1
  refine check_sat (fun hr => ⟨y, ?_, hr⟩) (fun hr => ⟨y, ⟨?_, hm.bad, hr⟩, hcl, ?_, h3, ?_, ?_, ?_, ?_⟩)
  · exact hm.core.of (e9 := he) (e11 := fun _ => hcl)
  · exact hm.core.of (e9 := he) (e11 := fun _ => hcl)
  · obtain ⟨B, a, b, d⟩ := h2
    exact ⟨B, a, fun e => b (e.imp he id), d⟩
  · exact fun e => hn ⟨e.1, he e.2⟩
  · exact fun e => hn' ⟨e.1, he e.2⟩
  · intro e
    have e' := e
    rw [Bool.and_eq_true] at e'
    exact ⟨hq (he e), near_iff.1 e'.2⟩
  · funext j
    show 3 / 10 * s.k1 j - 9 / 10 * s.k2 j + 12 / 10 * s.moles j = 3 / 10 * s.k1 j - 9 / 10 * s.k2 j + 6 / 5 * s.moles j
    ring

/-- Before the fourth evaluation. -/
def K3 (X : Ctx n κ σ π ρ) (s : St n κ σ π ρ) : Prop :=
  ∃ y, Mid X y s ∧ s.cell = X.c.save y ∧ E2 X y s s.k2 ∧ E3 X y s s.k3 ∧ s.eq = false ∧
    (s.moles = fun j => 3 / 10 * s.k1 j - 9 / 10 * s.k2 j + 6 / 5 * s.k3 j)

theorem quick3_sat {X : Ctx n κ σ π ρ} {s : St n κ σ π ρ} (h : J3 X s) :
    (quick3 X.c X.P s).Sat (K3 X) (Ag X) (Tu X) (Qu X) := by
  obtain ⟨y, hm, hcl, h2, h3, hn, hn', hq, hl⟩ := h
  unfold quick3
  split_ifs with h1
  · obtain ⟨hr, he⟩ := h1
    obtain ⟨h', r, -, hk, hk1, hh⟩ := hm.core.k1
    have hh' := hh he
    subst hh'
    have hk1' : s.k1 = r := by
      rw [hk1]
      funext j
      rw [div_self (ne_of_gt hm.core.pos), mul_one]
    have hm' : Mid X y { s with moles := fun j => 1 / 2 * s.k1 j - 3 / 2 * s.k2 j + 2 * s.k3 j } :=
      ⟨hm.core.of (e9 := fun e => e) (e11 := hm.core.clean), hm.bad, hm.red⟩
    refine (finish_sat hm' 3 (G := fun s' => ∃ x p q k e,
      X.c.run s.cell (atMost s.mT (fun j => 1 / 2 * s.k1 j - 3 / 2 * s.k2 j + 2 * s.k3 j)) = .ok x p q ∧
      s' = { s with
        m := rest s.mT (atMost s.mT (fun j => 1 / 2 * s.k1 j - 3 / 2 * s.k2 j + 2 * s.k3 j))
        moles := k
        cur := x
        cell := ⟨s.cell.main, p, q⟩
        steps := s.steps ++ [⟨3, s.h, atMost s.mT (fun j => 1 / 2 * s.k1 j - 3 / 2 * s.k2 j + 2 * s.k3 j), s.mT,
          rest s.mT (atMost s.mT (fun j => 1 / 2 * s.k1 j - 3 / 2 * s.k2 j + 2 * s.k3 j))⟩]
        eq := e }) ?_).bind ?_
    · intro x p q k a b
      exact ⟨x, p, q, k, _, a, rfl⟩
    · rintro s' ⟨x, p, q, k, e, a, rfl⟩
      rw [hcl] at a
      simp only [Act.Sat, keep]
      refine ⟨x, ?_, ?_, rfl, rfl, rfl, fun _ => rfl, ?_⟩
      · refine hm.core.path.step hm.core.pos (by decide) (.inr (.inr (.inr (.inl ⟨rfl, ?_⟩)))) a
        rw [hm.core.sum]
        obtain ⟨B, -, hB, hE⟩ := h2
        rw [hB (.inl he)] at hE
        rw [← hk1'] at hk
        exact ⟨s.k1, s.k2, s.k3, hk, hE, h3, (hq he).1, (hq he).2, rfl⟩
      · show span (s.steps ++ [_]) = _
        rw [span_append, hm.core.sum, (hm.core.eqh he).2.1]
        show 0 + s.h = _
        rw [(hm.core.eqh he).1, zero_add]
      · refine .inr ⟨?_, _, by rw [(hm.core.eqh he).2.2]; rfl⟩
        cases hf : X.full
        · rfl
        · rw [hm.core.full hf] at he; cases he
  · refine ⟨y, hm, hcl, h2, h3, ?_, hl⟩
    cases he : s.eq
    · rfl
    · rcases hm.core.rks with hr | hr | hr | hr
      · exact absurd ⟨hr, he⟩ hn
      · exact absurd ⟨hr, he⟩ hn'
      · exact absurd ⟨hr, he⟩ h1
      · rw [hm.core.r6 hr] at he; cases he

/-- After the fourth evaluation. -/
def L4 (X : Ctx n κ σ π ρ) (s : St n κ σ π ρ) : Prop :=
  ∃ y, Mid X y s ∧ s.cell = X.c.save y ∧ E2 X y s s.k2 ∧ E3 X y s s.k3 ∧ s.eq = false ∧ E4 X y s s.moles

theorem trial3_sat {X : Ctx n κ σ π ρ} {s : St n κ σ π ρ} (h : K3 X s) :
    (trial X.c X.P (3 / 5) s).Sat (L4 X) (Ag X) (Tu X) (Qu X) := by
  obtain ⟨y, hm, hcl, h2, h3, he, hl⟩ := h
  refine trial_sat hm _ fun x p q k a b => ⟨y, hm.after _ _ _, rfl, h2, h3, he, ?_⟩
  rw [hl] at a b
  rw [hcl] at a
  exact ⟨x, p, q, a, b⟩

/-- After the fourth evaluation was stored. -/
def M4 (X : Ctx n κ σ π ρ) (s : St n κ σ π ρ) : Prop :=
  ∃ y, Mid X y s ∧ s.cell = X.c.save y ∧ E2 X y s s.k2 ∧ E3 X y s s.k3 ∧ s.eq = false ∧ E4 X y s s.k4 ∧
    (s.moles = fun j => -11 / 54 * s.k1 j + 5 / 2 * s.k2 j - 70 / 27 * s.k3 j + 35 / 27 * s.k4 j)

theorem store4_sat {X : Ctx n κ σ π ρ} {s : St n κ σ π ρ} (h : L4 X s) :
    (store4 X.P s).Sat (M4 X) (Ag X) (Tu X) (Qu X) := by
  obtain ⟨y, hm, hcl, h2, h3, he, h4⟩ := h
  refine check_sat (fun hr => ⟨y, ?_, hr⟩) (fun hr => ⟨y, ⟨?_, hm.bad, hr⟩, hcl, h2, h3, he, h4, ?_⟩)
  · exact hm.core.of (e9 := fun e => e) (e11 := fun _ => hcl)
  · exact hm.core.of (e9 := fun e => e) (e11 := fun _ => hcl)
  · funext j
    show -11 / 54 * s.k1 j + 5 / 2 * s.k2 j + -70 / 27 * s.k3 j + 35 / 27 * s.moles j =
      -11 / 54 * s.k1 j + 5 / 2 * s.k2 j - 70 / 27 * s.k3 j + 35 / 27 * s.moles j
    ring

/-- After the fifth evaluation. -/
def L5 (X : Ctx n κ σ π ρ) (s : St n κ σ π ρ) : Prop :=
  ∃ y, Mid X y s ∧ s.cell = X.c.save y ∧ E2 X y s s.k2 ∧ E3 X y s s.k3 ∧ s.eq = false ∧ E4 X y s s.k4 ∧
    E5 X y s s.moles

theorem trial4_sat {X : Ctx n κ σ π ρ} {s : St n κ σ π ρ} (h : M4 X s) :
    (trial X.c X.P 1 s).Sat (L5 X) (Ag X) (Tu X) (Qu X) := by
  obtain ⟨y, hm, hcl, h2, h3, he, h4, hl⟩ := h
  refine trial_sat hm _ fun x p q k a b => ⟨y, hm.after _ _ _, rfl, h2, h3, he, h4, ?_⟩
  rw [hl] at a b
  rw [hcl] at a
  exact ⟨x, p, q, a, b⟩

/-- After the fifth evaluation was stored. -/
def M5 (X : Ctx n κ σ π ρ) (s : St n κ σ π ρ) : Prop :=
  ∃ y, Mid X y s ∧ s.cell = X.c.save y ∧ E2 X y s s.k2 ∧ E3 X y s s.k3 ∧ s.eq = false ∧ E4 X y s s.k4 ∧
    E5 X y s s.k5 ∧ (s.moles = fun j => 1631 / 55296 * s.k1 j + 175 / 512 * s.k2 j + 575 / 13824 * s.k3 j +
      44275 / 110592 * s.k4 j + 253 / 4096 * s.k5 j)

theorem store5_sat {X : Ctx n κ σ π ρ} {s : St n κ σ π ρ} (h : L5 X s) :
    (store5 X.P s).Sat (M5 X) (Ag X) (Tu X) (Qu X) := by
  obtain ⟨y, hm, hcl, h2, h3, he, h4, h5⟩ := h
  refine check_sat (fun hr => ⟨y, ?_, hr⟩) (fun hr => ⟨y, ⟨?_, hm.bad, hr⟩, hcl, h2, h3, he, h4, h5, rfl⟩)
  · exact hm.core.of (e9 := fun e => e) (e11 := fun _ => hcl)
  · exact hm.core.of (e9 := fun e => e) (e11 := fun _ => hcl)

/-- After the sixth evaluation. -/
def L6 (X : Ctx n κ σ π ρ) (s : St n κ σ π ρ) : Prop :=
  ∃ y, Mid X y s ∧ s.cell = X.c.save y ∧ E2 X y s s.k2 ∧ E3 X y s s.k3 ∧ s.eq = false ∧ E4 X y s s.k4 ∧
    E5 X y s s.k5 ∧ E6 X y s s.moles

theorem trial5_sat {X : Ctx n κ σ π ρ} {s : St n κ σ π ρ} (h : M5 X s) :
    (trial X.c X.P (7 / 8) s).Sat (L6 X) (Ag X) (Tu X) (Qu X) := by
  obtain ⟨y, hm, hcl, h2, h3, he, h4, h5, hl⟩ := h
  refine trial_sat hm _ fun x p q k a b => ⟨y, hm.after _ _ _, rfl, h2, h3, he, h4, h5, ?_⟩
  rw [hl] at a b
  rw [hcl] at a
  exact ⟨x, p, q, a, b⟩

end Verif.Kinetics
