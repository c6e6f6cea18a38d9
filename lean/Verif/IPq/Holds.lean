import Verif.IPq.Keeps

/-!
# Lemmas: lines, components, switches, the database and the dump over sessions
-/

namespace Verif.IPq

open Verif.IPq.Spec

variable {χ : Type}

/-! ## Shapes of calls -/

/-- A call that runs input is a run behind its handlers, up to `ClearAccumulated`. -/
theorem run_shape (E : Engine χ) (s : St χ) (o : Op) (ho : runs o = true) :
    ∃ r i s0 c, (s0 = s ∨ s0 = dropAcc s) ∧
      step E s o = ({ (after (body E r i s0)).1 with clearAcc := c }, (after (body E r i s0)).2) := by
  cases o <;> simp only [runs, Bool.false_eq_true] at ho
  case runAccumulated =>
    refine ⟨"RunAccumulated".toList, .inl s.acc, s, ?_⟩
    simp only [step, runAccumulated]
    generalize body E "RunAccumulated".toList (.inl s.acc) s = p
    rcases p with ⟨q, v⟩
    cases v with
    | none => exact ⟨true, Or.inl trivial, rfl⟩
    | some r => exact ⟨q.clearAcc, Or.inl trivial, rfl⟩
  case runString t =>
    exact ⟨"RunString".toList, .inl t, dropAcc s, _, Or.inr rfl, rfl⟩
  case runFile f c =>
    exact ⟨"RunFile".toList, _, dropAcc s, _, Or.inr rfl, rfl⟩

theorem load_shape (E : Engine χ) (s : St χ) (o : Op) (ho : loads o = true) :
    ∃ r i, step E s o = load E r i s := by
  cases o <;> simp only [loads, Bool.false_eq_true] at ho
  case loadDatabase f c => exact ⟨_, _, rfl⟩
  case loadString t => exact ⟨_, _, rfl⟩

/-- The parts that other calls leave alone. -/
structure Idle (s s' : St χ) : Prop where
  out : s'.out = s.out
  outLines : s'.outLines = s.outLines
  log : s'.log = s.log
  logLines : s'.logLines = s.logLines
  selStr : s'.selStr = s.selStr
  selLines : s'.selLines = s.selLines
  dump : s'.dump = s.dump
  dumpLines : s'.dumpLines = s.dumpLines
  eng : s'.eng = s.eng
  dbLoaded : s'.dbLoaded = s.dbLoaded

theorem idle_step (E : Engine χ) (s : St χ) (o : Op) (h1 : runs o = false) (h2 : loads o = false) :
    Idle s (step E s o).1 := by
  cases o <;> simp only [runs, loads, Bool.true_eq_false] at h1 h2
  case accumulate l =>
    simp only [step, accumulateLine, dropAcc]
    split_ifs <;> constructor <;> rfl
  case setCurrent n => simp only [step, setCurrent]; split_ifs <;> constructor <;> rfl
  case components => simp only [step, listComponents]; split_ifs <;> constructor <;> rfl
  case selValue c => cases c <;> constructor <;> rfl
  all_goals constructor <;> rfl

/-- What kind of call it was. -/
theorem kinds (o : Op) : runs o = true ∨ loads o = true ∨ (runs o = false ∧ loads o = false) := by
  cases o <;> simp [runs, loads]

/-! ## Lines -/

theorem Good.upd {s : St χ} (h : Good s) : Good { updateErrors s with dead := false } := h

theorem good_run (E : Engine χ) (hE : Tidy E) (r : Text) (i : Text ⊕ Text) (s : St χ)
    (h : (after (body E r i s)).2 = .ret 0) : Good (after (body E r i s)).1 := by
  obtain ⟨_, _, t, _, hf, hs⟩ := run_zero E r i s (after (body E r i s)).1 (by
    rw [← h])
  rw [hs]
  exact (good_finish E hE t s hf).upd

theorem load_zero (E : Engine χ) (r : Text) (i : Text ⊕ Text) (s : St χ)
    (h : (load E r i s).2 = .ret 0) :
    ∃ t s' x w, after (body E "RunString".toList (.inl t) s') =
        (({ (load E r i s).1 with eng := x, sw := w }), .ret 0) ∧
      s' = dropAcc { (loadDb E r i (quiet s)).1 with
        eng := E.setReading (loadDb E r i (quiet s)).1.eng true } := by
  rcases load_cases E r i s with ⟨q, _, _, hn⟩ | ⟨q, e, h0, hq⟩
  · exact absurd h hn
  · obtain ⟨x, t, s', hr, hs'⟩ := testDb_cases E (loadDb E r i (quiet s)).1
    refine ⟨t, dropAcc s', x, q.sw, ?_, by rw [hs']⟩
    rw [← hq] at hr
    refine Eq.trans hr ?_
    rw [e, h]

theorem good_load (E : Engine χ) (hE : Tidy E) (r : Text) (i : Text ⊕ Text) (s : St χ)
    (h : (load E r i s).2 = .ret 0) : Good (load E r i s).1 := by
  obtain ⟨t, s', x, w, hr, _⟩ := load_zero E r i s h
  have := good_run E hE "RunString".toList (.inl t) s' (by rw [hr])
  rw [hr] at this
  exact this

theorem good_session (E : Engine χ) (hE : Tidy E) (ops : List Op)
    (h : LastZero (session E (fresh E) ops).2) : Good (session E (fresh E) ops).1 := by
  refine session_inv E (fun s h => LastZero h → Good s) (fresh E) (fun _ => ⟨rfl, rfl, fun n => rfl⟩)
    ?_ ops h
  intro s h o ih hz
  unfold LastZero at hz
  rw [lastOf_snoc] at hz
  rcases kinds o with hr | hl | ⟨hr, hl⟩
  · simp only [hr, Bool.true_or, if_true] at hz
    have hz' := hz _ rfl
    obtain ⟨r, i, s0, c, _, e⟩ := run_shape E s o hr
    rw [e] at hz' ⊢
    exact good_run E hE r i s0 hz'
  · simp only [hl, Bool.or_true, if_true] at hz
    have hz' := hz _ rfl
    obtain ⟨r, i, e⟩ := load_shape E s o hl
    rw [e] at hz' ⊢
    exact good_load E hE r i s hz'
  · simp only [hr, hl, Bool.or_self, Bool.false_eq_true, if_false] at hz
    have hg := ih hz
    have hi := idle_step E s o hr hl
    refine ⟨?_, ?_, fun n => ?_⟩
    · rw [hi.out, hi.outLines]; exact hg.1
    · rw [hi.log, hi.logLines]; exact hg.2.1
    · rw [hi.selStr, hi.selLines]; exact hg.2.2 n

/-- Behind a run that came back the error and warning lines are those of the strings. -/
theorem errLines_run (E : Engine χ) (r : Text) (i : Text ⊕ Text) (s : St χ) (n : Nat)
    (h : (after (body E r i s)).2 = .ret n) :
    (after (body E r i s)).1.errLines = getlines (after (body E r i s)).1.err ∧
    (after (body E r i s)).1.warnLines = getlines (after (body E r i s)).1.warn := by
  rcases body_cases E r i s with ⟨_, hb⟩ | ⟨_, m, _, hb⟩ | ⟨_, _, hb⟩ | ⟨_, _, hb⟩ |
    ⟨_, _, t, _, _, hb⟩
  · rw [hb]; exact ⟨rfl, rfl⟩
  · rw [hb]; exact ⟨rfl, rfl⟩
  · rw [hb] at h; simp [after] at h
  · rw [after_res hb] at h; simp at h
  · rw [hb]; exact ⟨rfl, rfl⟩

/-! ## The database -/

theorem loadDb_zero (E : Engine χ) (r : Text) (i : Text ⊕ Text) (s : St χ)
    (h : (loadDb E r i s).2 = .ret 0) : (loadDb E r i s).1.dbLoaded = true := by
  rcases loadDb_cases E r i s with ⟨m, _, e⟩ | ⟨t, _, _, e⟩ | ⟨t, evs, x, _, _, e⟩ |
    ⟨t, evs, x, _, _, e⟩
  · rw [e] at h
    simp only [Res.ret.injEq] at h
    exact absurd h (errorMsg_inputErrors _ _)
  · rw [e] at h; simp at h
  · rw [e] at h ⊢
    simp only [Res.ret.injEq] at h
    simpa using h
  · rw [e] at h; simp at h

theorem kept_step (E : Engine χ) (s : St χ) (o : Op) (hl : loads o = false) :
    (step E s o).1.dbLoaded = s.dbLoaded := by
  rcases kinds o with hr | hl' | ⟨hr, hl⟩
  · obtain ⟨r, i, s0, c, hs, e⟩ := run_shape E s o hr
    rw [e]
    have h := ((kept_body E r i s0).comp (kept_after _)).dbLoaded
    refine h.trans ?_
    rcases hs with hs | hs <;> rw [hs] <;> rfl
  · rw [hl] at hl'; simp at hl'
  · exact (idle_step E s o hr hl).dbLoaded

theorem dbLoaded_session (E : Engine χ) (ops : List Op) (o : Op)
    (h : lastOf loads (session E (fresh E) ops).2 = some (o, .ret 0)) :
    (session E (fresh E) ops).1.dbLoaded = true := by
  refine session_inv E (fun s h => ∀ o, lastOf loads h = some (o, .ret 0) → s.dbLoaded = true)
    (fresh E) (fun _ h => by simp [lastOf] at h) ?_ ops o h
  intro s h o ih o' hz
  rw [lastOf_snoc] at hz
  cases hl : loads o with
  | false =>
    simp only [hl, Bool.false_eq_true, if_false] at hz
    rw [kept_step E s o hl]
    exact ih o' hz
  | true =>
    simp only [hl, if_true, Option.some.injEq, Prod.mk.injEq] at hz
    obtain ⟨r, i, e⟩ := load_shape E s o hl
    rw [e] at hz ⊢
    obtain ⟨t, s', x, w, hr, hs'⟩ := load_zero E r i s hz.2
    obtain ⟨hd, _⟩ := run_zero E _ _ _ _ hr
    have hk := ((kept_body E "RunString".toList (.inl t) s').comp (kept_after _)).dbLoaded
    rw [hr, hd] at hk
    exact hk

theorem load_none (E : Engine χ) (f : Text) (s : St χ) :
    (loadDatabase E f none s).1.dbLoaded = false := by
  have hne : (loadDb E "LoadDatabase".toList (.inr (unableMsg "LoadDatabase".toList f))
      (quiet s)).2 ≠ .ret 0 := by
    rcases loadDb_cases E "LoadDatabase".toList (.inr (unableMsg "LoadDatabase".toList f))
        (quiet s) with ⟨m, _, e⟩ | ⟨t, h, _⟩ | ⟨t, _, _, h, _⟩ | ⟨t, _, _, h, _⟩
    · rw [e]
      intro h
      simp only [Res.ret.injEq] at h
      exact errorMsg_inputErrors _ _ h
    · simp at h
    · simp at h
    · simp at h
  rcases load_cases E "LoadDatabase".toList (.inr (unableMsg "LoadDatabase".toList f)) s with
    ⟨q, e, hq, _⟩ | ⟨q, _, h0, _⟩
  · show (load E "LoadDatabase".toList (.inr (unableMsg "LoadDatabase".toList f)) s).1.dbLoaded = false
    rw [e]
    rcases loadDb_cases E "LoadDatabase".toList (.inr (unableMsg "LoadDatabase".toList f))
        (quiet s) with ⟨m, _, e⟩ | ⟨t, h, _⟩ | ⟨t, _, _, h, _⟩ | ⟨t, _, _, h, _⟩
    · rw [e] at hq
      rw [(Prod.mk.inj hq).1]
    · simp at h
    · simp at h
    · simp at h
  · exact absurd h0 hne

theorem notLoaded_session (E : Engine χ) (ops : List Op)
    (h : NeverRead (session E (fresh E) ops).2) :
    (session E (fresh E) ops).1.dbLoaded = false := by
  refine session_inv E (fun s h => NeverRead h → s.dbLoaded = false) (fresh E) (fun _ => rfl) ?_ ops h
  intro s h o ih hz
  unfold NeverRead at hz
  rw [lastOf_snoc] at hz
  cases hl : loads o with
  | false =>
    simp only [hl, Bool.false_eq_true, if_false] at hz
    rw [kept_step E s o hl]
    exact ih hz
  | true =>
    simp only [hl, if_true] at hz
    obtain ⟨f, hf⟩ := hz _ rfl
    dsimp only at hf
    subst hf
    exact load_none E f s

/-! ## Components -/

theorem body_updComp (E : Engine χ) (r : Text) (i : Text ⊕ Text) (s : St χ)
    (h : s.updComp = true) : (after (body E r i s)).1.updComp = true := by
  have hn : (release s).updComp = true := h
  have hfin : ∀ q : St χ, (finish E q).updComp = true := by
    intro q; unfold finish updateErrors; dsimp only; split_ifs <;> rfl
  unfold body
  cases i with
  | inr m =>
    dsimp only
    split_ifs
    · exact (same_errorMsg { release s with inErr := 1 } _).updComp.trans hn
    · exact (same_errorMsg { release s with inErr := 0, ioErr := 0 } m).updComp.trans hn
  | inl t =>
    dsimp only
    split_ifs
    · exact (same_errorMsg { release s with inErr := 1 } _).updComp.trans hn
    · exact hn
    · unfold doRun
      generalize E.run _ _ t = q
      rcases q with ⟨evs, e, x⟩
      dsimp only
      have ha : (apps { release s with inErr := 0, ioErr := 0 } evs).updComp = true :=
        (same_apps { release s with inErr := 0, ioErr := 0 } evs).updComp.trans hn
      cases e with
      | fin => exact hfin _
      | stop m => exact (same_errorMsg _ m).updComp.trans ha
      | thrown w => exact (same_errorMsg _ (thrownMsg r w)).updComp.trans ha

theorem run_zero_updComp (E : Engine χ) (r : Text) (i : Text ⊕ Text) (s : St χ)
    (h : (after (body E r i s)).2 = .ret 0) : (after (body E r i s)).1.updComp = true := by
  obtain ⟨_, _, t, _, _, hs⟩ := run_zero E r i s (after (body E r i s)).1 (by rw [← h])
  rw [hs]
  unfold finish updateErrors
  dsimp only
  split_ifs <;> rfl

theorem load_updComp (E : Engine χ) (r : Text) (i : Text ⊕ Text) (s : St χ) :
    (load E r i s).1.updComp = true := by
  have hdb := (loadDb_acc E r i (quiet s)).2.2.1
  rcases load_cases E r i s with ⟨q, e, hq, _⟩ | ⟨q, e, _, hq⟩
  · rw [e]
    rw [← hq] at hdb
    exact hdb
  · rw [e]
    obtain ⟨x, t, s', hr, hs'⟩ := testDb_cases E (loadDb E r i (quiet s)).1
    have := body_updComp E "RunString".toList (.inl t) (dropAcc s') (by rw [hs']; exact hdb)
    have hr' : after (body E "RunString".toList (.inl t) (dropAcc s')) =
        ({ (testDb E (loadDb E r i (quiet s)).1).1 with eng := x },
          (testDb E (loadDb E r i (quiet s)).1).2) := hr
    rw [hr', ← hq] at this
    exact this

theorem comps_session (E : Engine χ) (ops : List Op)
    (h : LastCame (session E (fresh E) ops).2) :
    (session E (fresh E) ops).1.updComp = true ∨
      (session E (fresh E) ops).1.comps = E.components (session E (fresh E) ops).1.eng := by
  refine session_inv E (fun s h => LastCame h → s.updComp = true ∨ s.comps = E.components s.eng)
    (fresh E) (fun _ => Or.inl rfl) ?_ ops h
  intro s h o ih hz
  unfold LastCame at hz
  rw [lastOf_snoc] at hz
  rcases kinds o with hr | hl | ⟨hr, hl⟩
  · simp only [hr, Bool.true_or, if_true] at hz
    have hz' : (step E s o).2 = .ret 0 := by
      rcases hz _ rfl with hh | hh
      · cases o <;> simp [runs, loads] at hr hh
      · exact hh
    obtain ⟨r, i, s0, c, _, e⟩ := run_shape E s o hr
    rw [e] at hz' ⊢
    exact Or.inl (run_zero_updComp E r i s0 hz')
  · obtain ⟨r, i, e⟩ := load_shape E s o hl
    rw [e]
    exact Or.inl (load_updComp E r i s)
  · simp only [hr, hl, Bool.or_self, Bool.false_eq_true, if_false] at hz
    have hg := ih hz
    cases o <;> simp only [runs, loads, Bool.true_eq_false] at hr hl
    case accumulate l =>
      simp only [step, accumulateLine, dropAcc]
      split_ifs <;> exact hg
    case setCurrent n => simp only [step, setCurrent]; split_ifs <;> exact hg
    case components =>
      simp only [step, listComponents]
      split_ifs
      · exact Or.inr rfl
      · exact hg
    case selValue c => cases c <;> exact hg
    all_goals exact hg

/-! ## Switches -/

theorem load_sw (E : Engine χ) (r : Text) (i : Text ⊕ Text) (s : St χ) (n : Nat)
    (h : (load E r i s).2 = .ret n) : (load E r i s).1.sw = s.sw := by
  have hq : (tested E (loadDb E r i (quiet s))).1.sw = (quiet s).sw := by
    have hdb := (loadDb_acc E r i (quiet s)).2.1
    by_cases h0 : (loadDb E r i (quiet s)).2 = .ret 0
    · rw [tested_zero E h0]
      obtain ⟨x, t, s', hr, hs'⟩ := testDb_cases E (loadDb E r i (quiet s)).1
      have hk := ((kept_body E "RunString".toList (.inl t) (dropAcc s')).comp (kept_after _)).sw
      have hr' : after (body E "RunString".toList (.inl t) (dropAcc s')) =
          ({ (testDb E (loadDb E r i (quiet s)).1).1 with eng := x },
            (testDb E (loadDb E r i (quiet s)).1).2) := hr
      rw [hr', hs'] at hk
      exact hk.trans hdb
    · rw [tested_other E h0]; exact hdb
  unfold load at h ⊢
  rw [restore_res] at h
  generalize tested E (loadDb E r i (quiet s)) = p at h hq ⊢
  rcases p with ⟨q, v⟩
  dsimp only at h hq
  subst h
  simp only [restore]
  rw [hq]
  rfl

theorem lastSet_snoc (w : Switch) (ops : List Op) (o : Op) :
    lastSet w (ops ++ [o]) = match o with
      | .setSwitch v b => if v = w then some b else lastSet w ops
      | _ => lastSet w ops := by
  unfold lastSet
  rw [List.filterMap_append]
  cases o <;> simp [List.filterMap_cons]
  split_ifs <;> simp

theorem value_set (w : Switches) (b : Bool) (v u : Switch) :
    Value (w.set b v) u = if v = u then b else Value w u := by
  cases v <;> cases u <;> simp [Value, Switches.set]

theorem sw_session (E : Engine χ) (ops : List Op) (w : Switch)
    (h : LoadsCame (session E (fresh E) ops).2) :
    Value (session E (fresh E) ops).1.sw w = (lastSet w ops).getD (atStart w) := by
  have key := session_inv E (fun s h => LoadsCame h →
    Value s.sw w = (lastSet w (h.map Prod.fst)).getD (atStart w))
    (fresh E) (fun _ => by cases w <;> rfl) ?_ ops h
  · rw [session_ops] at key; exact key
  intro s h o ih hz
  have hi := ih (fun p hp => hz p (by simp [hp]))
  rw [List.map_append, List.map_cons, List.map_nil, lastSet_snoc]
  rcases kinds o with hr | hl | ⟨hr, hl⟩
  · obtain ⟨r, i, s0, c, hs, e⟩ := run_shape E s o hr
    have hk := ((kept_body E r i s0).comp (kept_after _)).sw
    have hsw : (step E s o).1.sw = s.sw := by
      rw [e]
      refine hk.trans ?_
      rcases hs with hs | hs <;> rw [hs] <;> rfl
    rw [hsw]
    cases o <;> simp only [runs, Bool.false_eq_true] at hr <;> exact hi
  · obtain ⟨n, hn⟩ := hz (o, (step E s o).2) (by simp) hl
    obtain ⟨r, i, e⟩ := load_shape E s o hl
    dsimp only at hn
    rw [e] at hn ⊢
    rw [load_sw E r i s n hn]
    cases o <;> simp only [loads, Bool.false_eq_true] at hl <;> exact hi
  · cases o <;> simp only [runs, loads, Bool.true_eq_false] at hr hl
    case accumulate l =>
      simp only [step, accumulateLine, dropAcc]
      split_ifs <;> exact hi
    case setCurrent n => simp only [step, setCurrent]; split_ifs <;> exact hi
    case components => simp only [step, listComponents]; split_ifs <;> exact hi
    case selValue c => cases c <;> exact hi
    case setSwitch v b =>
      simp only [step, value_set]
      split_ifs
      · rfl
      · exact hi
    all_goals exact hi

/-! ## The dump -/

theorem dump_body (E : Engine χ) (r : Text) (i : Text ⊕ Text) (s : St χ)
    (h : s.dumpLines = getlines s.dump) :
    (after (body E r i s)).1.dumpLines = getlines (after (body E r i s)).1.dump := by
  have herr : ∀ (q : St χ) m, q.dumpLines = getlines q.dump →
      (errorMsg q m).dumpLines = getlines (errorMsg q m).dump := by
    intro q m hq
    rw [(errorMsg_rest q m).2.2.2.2, (errorMsg_rest q m).2.2.2.1, hq]
  have hfin : ∀ q : St χ, q.dumpLines = getlines q.dump →
      (finish E q).dumpLines = getlines (finish E q).dump := by
    intro q hq; unfold finish updateErrors; dsimp only; split_ifs <;> exact hq
  unfold body
  cases i with
  | inr m =>
    dsimp only
    split_ifs
    · exact herr { release s with inErr := 1 } _ h
    · exact herr { release s with inErr := 0, ioErr := 0 } m h
  | inl t =>
    dsimp only
    split_ifs
    · exact herr { release s with inErr := 1 } _ h
    · exact h
    · unfold doRun
      generalize E.run _ _ t = q
      rcases q with ⟨evs, e, x⟩
      dsimp only
      have ha := apps_dumpLines { release s with inErr := 0, ioErr := 0 } evs h
      generalize apps { release s with inErr := 0, ioErr := 0 } evs = z at ha ⊢
      have hz : ({ z with eng := x } : St χ).dumpLines = getlines ({ z with eng := x } : St χ).dump :=
        ha
      generalize ({ z with eng := x } : St χ) = y at hz ⊢
      cases e with
      | fin => exact hfin y hz
      | stop m => exact herr y m hz
      | thrown w => exact herr y (thrownMsg r w) hz

theorem dump_load (E : Engine χ) (r : Text) (i : Text ⊕ Text) (s : St χ) :
    (load E r i s).1.dumpLines = getlines (load E r i s).1.dump := by
  have hdb := (loadDb_acc E r i (quiet s)).2.2.2
  rcases load_cases E r i s with ⟨q, e, hq, _⟩ | ⟨q, e, _, hq⟩
  · rw [e]
    rw [← hq] at hdb
    exact hdb
  · rw [e]
    obtain ⟨x, t, s', hr, hs'⟩ := testDb_cases E (loadDb E r i (quiet s)).1
    have := dump_body E "RunString".toList (.inl t) (dropAcc s') (by rw [hs']; exact hdb)
    have hr' : after (body E "RunString".toList (.inl t) (dropAcc s')) =
        ({ (testDb E (loadDb E r i (quiet s)).1).1 with eng := x },
          (testDb E (loadDb E r i (quiet s)).1).2) := hr
    rw [hr', ← hq] at this
    exact this

theorem dump_session (E : Engine χ) (ops : List Op) :
    (session E (fresh E) ops).1.dumpLines = getlines (session E (fresh E) ops).1.dump := by
  refine session_inv E (fun s _ => s.dumpLines = getlines s.dump) (fresh E) rfl ?_ ops
  intro s h o ih
  rcases kinds o with hr | hl | ⟨hr, hl⟩
  · obtain ⟨r, i, s0, c, hs, e⟩ := run_shape E s o hr
    rw [e]
    exact dump_body E r i s0 (by rcases hs with hs | hs <;> rw [hs] <;> exact ih)
  · obtain ⟨r, i, e⟩ := load_shape E s o hl
    rw [e]
    exact dump_load E r i s
  · have hi := idle_step E s o hr hl
    rw [hi.dumpLines, hi.dump]; exact ih

/-! ## Numbers of selected outputs -/

theorem loadDb_sel (E : Engine χ) (r : Text) (i : Text ⊕ Text) (s : St χ) :
    (loadDb E r i s).1.cur = 1 ∧ (loadDb E r i s).1.selOn = [(1, false)] := by
  rcases loadDb_cases E r i s with ⟨m, _, e⟩ | ⟨t, _, _, e⟩ | ⟨t, evs, x, _, _, e⟩ |
    ⟨t, evs, x, _, _, e⟩
  · have h := same_errorMsg (unload E s) m
    rw [e]; exact ⟨h.cur, h.selOn⟩
  · rw [e]; exact ⟨rfl, rfl⟩
  · have h := same_apps (unload E s) evs
    rw [e]; exact ⟨h.cur, h.selOn⟩
  · have h := same_apps (unload E s) evs
    have h' := same_errorMsg { apps (unload E s) evs with eng := x } (thrownMsg r none)
    rw [e]; exact ⟨h'.cur.trans h.cur, h'.selOn.trans h.selOn⟩

theorem load_sel (E : Engine χ) (r : Text) (i : Text ⊕ Text) (s : St χ) :
    (load E r i s).1.cur = 1 ∧ (load E r i s).1.selOn = [(1, false)] := by
  have hdb := loadDb_sel E r i (quiet s)
  rcases load_cases E r i s with ⟨q, e, hq, _⟩ | ⟨q, e, _, hq⟩
  · rw [e]
    rw [← hq] at hdb
    exact hdb
  · rw [e]
    obtain ⟨x, t, s', hr, hs'⟩ := testDb_cases E (loadDb E r i (quiet s)).1
    have hk := (kept_body E "RunString".toList (.inl t) (dropAcc s')).comp (kept_after _)
    have hr' : after (body E "RunString".toList (.inl t) (dropAcc s')) =
        ({ (testDb E (loadDb E r i (quiet s)).1).1 with eng := x },
          (testDb E (loadDb E r i (quiet s)).1).2) := hr
    rw [hr', ← hq, hs'] at hk
    exact ⟨hk.cur.trans hdb.1, hk.selOn.trans hdb.2⟩

theorem wish_snoc (ops : List Op) (o : Op) : wish (ops ++ [o]) = (match o with
      | .setCurrent n => if 0 ≤ n then (n, (wish ops).2) else wish ops
      | .setSelString b => ((wish ops).1, fun k => if k = (wish ops).1 then some b else (wish ops).2 k)
      | .loadDatabase _ _ | .loadString _ => (1, fun k => if k = 1 then some false else none)
      | _ => wish ops) := by
  unfold wish
  rw [List.foldl_append, List.foldl_cons, List.foldl_nil]
  cases o <;> rfl

theorem wish_session (E : Engine χ) (ops : List Op) :
    (session E (fresh E) ops).1.cur = (wish ops).1 ∧
    ∀ n, OMap.find (session E (fresh E) ops).1.selOn n = (wish ops).2 n := by
  have h1 : ∀ n : Int, OMap.find [((1 : Int), false)] n = if n = 1 then some false else none := by
    intro n; simp only [OMap.find]
  have key := session_inv E (fun s h => s.cur = (wish (h.map Prod.fst)).1 ∧
    ∀ n, OMap.find s.selOn n = (wish (h.map Prod.fst)).2 n) (fresh E) ⟨rfl, h1⟩ ?_ ops
  · rw [session_ops] at key; exact key
  intro s h o ih
  rw [List.map_append, List.map_cons, List.map_nil, wish_snoc]
  rcases kinds o with hr | hl | ⟨hr, hl⟩
  · obtain ⟨r, i, s0, c, hs, e⟩ := run_shape E s o hr
    have hk := (kept_body E r i s0).comp (kept_after _)
    have hc : (step E s o).1.cur = s.cur := by
      rw [e]; refine hk.cur.trans ?_; rcases hs with hs | hs <;> rw [hs] <;> rfl
    have ho : (step E s o).1.selOn = s.selOn := by
      rw [e]; refine hk.selOn.trans ?_; rcases hs with hs | hs <;> rw [hs] <;> rfl
    rw [hc, ho]
    cases o <;> simp only [runs, Bool.false_eq_true] at hr <;> exact ih
  · obtain ⟨r, i, e⟩ := load_shape E s o hl
    rw [e, (load_sel E r i s).1, (load_sel E r i s).2]
    cases o <;> simp only [loads, Bool.false_eq_true] at hl <;> exact ⟨rfl, h1⟩
  · cases o <;> simp only [runs, loads, Bool.true_eq_false] at hr hl
    case accumulate l =>
      simp only [step, accumulateLine, dropAcc]
      split_ifs <;> exact ih
    case setCurrent n =>
      simp only [step, setCurrent]
      split_ifs
      · exact ⟨rfl, ih.2⟩
      · exact ih
    case setSelString b =>
      refine ⟨ih.1, fun n => ?_⟩
      simp only [step, setSelString, OMap.find_insert]
      rw [ih.1, ih.2]
    case components => simp only [step, listComponents]; split_ifs <;> exact ih
    case selValue c => cases c <;> exact ih
    all_goals exact ih

end Verif.IPq
