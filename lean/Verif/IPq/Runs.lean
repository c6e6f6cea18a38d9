import Verif.IPq.Lemmas

/-!
# Lemmas: one run, one load, and sessions
-/

namespace Verif.IPq

open Verif.IPq.Spec

variable {χ : Type}

/-- The parts that a run leaves alone. -/
structure Kept (s s' : St χ) : Prop where
  acc : s'.acc = s.acc
  clearAcc : s'.clearAcc = s.clearAcc
  sw : s'.sw = s.sw
  cur : s'.cur = s.cur
  selOn : s'.selOn = s.selOn
  dbLoaded : s'.dbLoaded = s.dbLoaded
  comps : s'.comps = s.comps

theorem Kept.comp {a b c : St χ} (h : Kept a b) (k : Kept b c) : Kept a c := by
  constructor
  · rw [k.acc, h.acc]
  · rw [k.clearAcc, h.clearAcc]
  · rw [k.sw, h.sw]
  · rw [k.cur, h.cur]
  · rw [k.selOn, h.selOn]
  · rw [k.dbLoaded, h.dbLoaded]
  · rw [k.comps, h.comps]

theorem Same.kept {s s' : St χ} (h : Same s s') : Kept s s' :=
  ⟨h.acc, h.clearAcc, h.sw, h.cur, h.selOn, h.dbLoaded, h.comps⟩

theorem kept_finish (E : Engine χ) (s : St χ) : Kept s (finish E s) := by
  unfold finish updateErrors
  dsimp only
  split_ifs <;> constructor <;> rfl

/-- Another engine state, other accumulated lines. -/
def over (s : St χ) (a : Text) (c : Bool) (x : χ) : St χ :=
  { s with acc := a, clearAcc := c, eng := x }

theorem errorMsg_over (s : St χ) (a : Text) (c : Bool) (x : χ) (m : Text) :
    errorMsg (over s a c x) m = over (errorMsg s m) a c x := by
  unfold errorMsg outputMsg logMsg over St.inputErrors
  dsimp only
  split_ifs <;> rfl

theorem app_over (s : St χ) (a : Text) (c : Bool) (x : χ) (e : Ev) :
    e.app (over s a c x) = over (e.app s) a c x := by
  cases e <;> simp only [Ev.app]
  case err m => exact errorMsg_over s a c x m
  case warn m => unfold warningMsg outputMsg logMsg over; dsimp only; split_ifs <;> rfl
  case out t => unfold outputMsg over; dsimp only; split_ifs <;> rfl
  case log t => unfold logMsg over; dsimp only; split_ifs <;> rfl
  case punch n t => unfold punchMsg selStringOn over; dsimp only; split_ifs <;> rfl
  case dump b t => unfold dumpStep over; dsimp only; split_ifs <;> rfl
  all_goals rfl

theorem apps_over (s : St χ) (a : Text) (c : Bool) (x : χ) (evs : List Ev) :
    apps (over s a c x) evs = over (apps s evs) a c x := by
  induction evs generalizing s with
  | nil => rfl
  | cons e es ih => rw [apps_cons, app_over, ih]; rfl

/-! ## One run -/

/-- Where a run begins. -/
def base (s : St χ) : St χ := { release s with inErr := 0, ioErr := 0 }

/-- Where the engine leaves off, the message that stopped it included. -/
def ran (E : Engine χ) (t : Text) (s : St χ) : St χ :=
  { apps (base s) (said (E.run s.eng s.sw t).1 (E.run s.eng s.sw t).2.1) with
    eng := (E.run s.eng s.sw t).2.2 }

/-- The end of a run that comes back. -/
def ended (E : Engine χ) (t : Text) (s : St χ) : St χ :=
  { updateErrors (match (E.run s.eng s.sw t).2.1 with
      | .fin => finish E (ran E t s)
      | _ => ran E t s) with dead := false }

/-- The run is not left by an exception. -/
def Calm (E : Engine χ) (t : Text) (s : St χ) : Prop :=
  ∀ w, (E.run s.eng s.sw t).2.1 ≠ .thrown w

theorem body_loaded (E : Engine χ) (r t : Text) (s : St χ) (hd : s.dbLoaded = true)
    (hl : s.dead = false) : body E r (.inl t) s = doRun E r t (base s) := by
  unfold body
  dsimp only
  rw [if_neg (by rw [show (release s).dbLoaded = true from hd]; decide),
    if_neg (by rw [show (release s).dead = false from hl]; decide)]
  rfl

theorem doRun_calm (E : Engine χ) (r t : Text) (s : St χ) (hc : Calm E t s) :
    doRun E r t (base s) = (match (E.run s.eng s.sw t).2.1 with
      | .fin => finish E (ran E t s)
      | _ => ran E t s, none) := by
  unfold doRun ran
  have h3 : (base s).eng = s.eng := rfl
  have h4 : (base s).sw = s.sw := rfl
  rw [h3, h4]
  unfold Calm at hc
  generalize E.run s.eng s.sw t = q at hc ⊢
  rcases q with ⟨evs, e, x⟩
  dsimp only at hc ⊢
  cases e with
  | fin => rfl
  | stop m =>
    dsimp only [said]
    rw [apps_append]
    have := errorMsg_over (apps (base s) evs) (apps (base s) evs).acc (apps (base s) evs).clearAcc x m
    have hb := same_errorMsg (apps (base s) evs) m
    refine Prod.ext ?_ rfl
    refine this.trans ?_
    unfold over
    rw [← hb.acc, ← hb.clearAcc]
    rfl
  | thrown w => exact absurd rfl (hc w)

theorem body_calm (E : Engine χ) (r t : Text) (s : St χ) (hd : s.dbLoaded = true)
    (hl : s.dead = false) (hc : Calm E t s) :
    body E r (.inl t) s = (match (E.run s.eng s.sw t).2.1 with
      | .fin => finish E (ran E t s)
      | _ => ran E t s, none) := by
  rw [body_loaded E r t s hd hl, doRun_calm E r t s hc]

theorem after_none (s : St χ) :
    after (s, none) = ({ updateErrors s with dead := false }, .ret s.inputErrors) := rfl

theorem inputErrors_ended (E : Engine χ) (t : Text) (s : St χ) :
    (ended E t s).inputErrors = (ran E t s).inputErrors := by
  unfold ended
  split
  · unfold finish updateErrors St.inputErrors
    dsimp only
    split_ifs <;> rfl
  · rfl

theorem runAccumulated_calm (E : Engine χ) (s : St χ) (hd : s.dbLoaded = true)
    (hl : s.dead = false) (hc : Calm E s.acc s) :
    runAccumulated E s =
      ({ ended E s.acc s with clearAcc := true }, .ret (ended E s.acc s).inputErrors) := by
  unfold runAccumulated
  rw [body_calm E _ s.acc s hd hl hc]
  rfl

theorem ran_dropAcc (E : Engine χ) (t : Text) (s : St χ) :
    ran E t (dropAcc s) = { ran E t s with acc := [], clearAcc := false } := by
  unfold ran
  have h1 : base (dropAcc s) = over (base s) [] false s.eng := rfl
  have h2 : (dropAcc s).eng = s.eng := rfl
  have h3 : (dropAcc s).sw = s.sw := rfl
  rw [h1, h2, h3, apps_over]
  rfl

theorem finish_acc (E : Engine χ) (s : St χ) :
    finish E { s with acc := [], clearAcc := false } =
      { finish E s with acc := [], clearAcc := false } := by
  unfold finish updateErrors selStringOn
  dsimp only
  split_ifs <;> rfl

theorem ended_dropAcc (E : Engine χ) (t : Text) (s : St χ) :
    ended E t (dropAcc s) = { ended E t s with acc := [], clearAcc := false } := by
  unfold ended
  have h2 : (dropAcc s).eng = s.eng := rfl
  have h3 : (dropAcc s).sw = s.sw := rfl
  rw [h2, h3, ran_dropAcc]
  cases (E.run s.eng s.sw t).2.1 with
  | fin =>
    dsimp only
    rw [finish_acc]
    rfl
  | stop m => rfl
  | thrown w => rfl

theorem calm_dropAcc {E : Engine χ} {t : Text} {s : St χ} (h : Calm E t s) :
    Calm E t (dropAcc s) := h

theorem after_body_calm (E : Engine χ) (r t : Text) (s : St χ) (hd : s.dbLoaded = true)
    (hl : s.dead = false) (hc : Calm E t s) :
    after (body E r (.inl t) s) = (ended E t s, .ret (ended E t s).inputErrors) := by
  rw [body_calm E r t s hd hl hc, after_none, inputErrors_ended]
  unfold ended
  split
  · refine Prod.ext rfl ?_
    congr 1
    unfold finish updateErrors St.inputErrors
    dsimp only
    split_ifs <;> rfl
  · rfl

theorem after_body_dropAcc (E : Engine χ) (r t : Text) (s : St χ) (hd : s.dbLoaded = true)
    (hl : s.dead = false) (hc : Calm E t s) :
    after (body E r (.inl t) (dropAcc s)) =
      ({ ended E t s with acc := [], clearAcc := false }, .ret (ended E t s).inputErrors) := by
  rw [after_body_calm E r t (dropAcc s) hd hl (calm_dropAcc hc), ended_dropAcc]
  rfl

/-- Any of the three calls that run input. -/
theorem step_run (E : Engine χ) (s : St χ) (o : Op) (t : Text) (ho : inputOf s.acc o = some t)
    (hd : s.dbLoaded = true) (hl : s.dead = false) (hc : Calm E t s) :
    ∃ a c, step E s o = ({ ended E t s with acc := a, clearAcc := c },
      .ret (ended E t s).inputErrors) := by
  cases o <;> simp only [inputOf, Option.some.injEq, reduceCtorEq] at ho
  case runAccumulated =>
    subst ho
    exact ⟨(ended E s.acc s).acc, true, runAccumulated_calm E s hd hl hc⟩
  case runString u =>
    subst ho
    exact ⟨[], false, after_body_dropAcc E _ u s hd hl hc⟩
  case runFile f c =>
    cases c <;> simp only [inputOf, Option.some.injEq, reduceCtorEq] at ho
    subst ho
    exact ⟨[], false, after_body_dropAcc E _ _ s hd hl hc⟩

/-! ## What runs leave alone, whatever happens -/

theorem kept_doRun (E : Engine χ) (r t : Text) (s : St χ) : Kept s (doRun E r t s).1 := by
  unfold doRun
  generalize E.run s.eng s.sw t = q
  rcases q with ⟨evs, e, x⟩
  dsimp only
  have hx : Kept s { apps s evs with eng := x } := by
    refine (same_apps _ evs).kept.comp ?_
    constructor <;> rfl
  cases e with
  | fin => exact hx.comp (kept_finish E _)
  | stop m => exact hx.comp (same_errorMsg _ _).kept
  | thrown w =>
    have h2 := hx.comp (same_errorMsg _ (thrownMsg r w)).kept
    exact ⟨h2.acc, h2.clearAcc, h2.sw, h2.cur, h2.selOn, h2.dbLoaded, h2.comps⟩

theorem kept_body (E : Engine χ) (r : Text) (i : Text ⊕ Text) (s : St χ) :
    Kept s (body E r i s).1 := by
  have hb : Kept s { release s with inErr := 0, ioErr := 0 } := by constructor <;> rfl
  have hn : Kept s { release s with inErr := 1 } := by constructor <;> rfl
  unfold body
  cases i with
  | inr m =>
    dsimp only
    split_ifs
    · exact hn.comp (same_errorMsg _ _).kept
    · exact hb.comp (same_errorMsg _ _).kept
  | inl t =>
    dsimp only
    split_ifs
    · exact hn.comp (same_errorMsg _ _).kept
    · exact hb
    · exact hb.comp (kept_doRun E r t _)

theorem kept_after (p : St χ × Option Res) : Kept p.1 (after p).1 := by
  rcases p with ⟨s, r⟩
  cases r <;> constructor <;> rfl

theorem after_res {p : St χ × Option Res} {r : Res} (h : p.2 = some r) : after p = (p.1, r) := by
  rcases p with ⟨s, q⟩
  dsimp only at h
  subst h
  rfl

/-! ## Sessions -/

theorem session_append (E : Engine χ) (s : St χ) (a b : List Op) :
    session E s (a ++ b) =
      ((session E (session E s a).1 b).1, (session E s a).2 ++ (session E (session E s a).1 b).2) := by
  induction a generalizing s with
  | nil => rfl
  | cons o os ih => simp only [List.cons_append, session, ih]

/-- What holds of a new instance and is kept by every call holds always. -/
theorem session_inv (E : Engine χ) (P : St χ → List (Op × Res) → Prop) (s : St χ) (h0 : P s [])
    (hs : ∀ s h o, P s h → P (step E s o).1 (h ++ [(o, (step E s o).2)])) (ops : List Op) :
    P (session E s ops).1 (session E s ops).2 := by
  induction ops using List.reverseRecOn with
  | nil => exact h0
  | append_singleton os o ih =>
    rw [session_append]
    exact hs _ _ o ih

theorem session_ops (E : Engine χ) (s : St χ) (ops : List Op) :
    (session E s ops).2.map Prod.fst = ops := by
  induction ops generalizing s with
  | nil => rfl
  | cons o os ih => simp [session, ih]

end Verif.IPq
