import Verif.IPq.Holds

/-!
# An instance over sessions of calls

`session E (fresh E) ops` are the calls `ops` made to a new instance, with whatever engine
`E`: its second part holds every call with what it gave.
-/

namespace Verif.IPq

open Verif.IPq.Spec

variable {χ : Type}

/-! ## Accumulated lines -/

/-- The accumulated text holds exactly the pending lines, each with its newline; provided
every run of accumulated lines came back.

Missing: a run left by an exception, see `Violations`. -/
theorem accumulated_partial (E : Engine χ) (ops : List Op)
    (h : RunsCame (session E (fresh E) ops).2) :
    (session E (fresh E) ops).1.acc = render (pending (ops.map past)) :=
  (acc_session E ops h).1

/-- `RunAccumulated` does what `RunString` does with the text of the pending lines: it
returns the same, and the instance is the same but for the lines themselves. -/
theorem accumulated_run_partial (E : Engine χ) (ops : List Op) (o : Op)
    (hn : NoThrow (session E (fresh E) ops).2)
    (hl : lastOf loads (session E (fresh E) ops).2 = some (o, .ret 0))
    (hc : ∀ w, (E.run (session E (fresh E) ops).1.eng (session E (fresh E) ops).1.sw
      (render (pending (ops.map past)))).2.1 ≠ .thrown w) :
    let s := (session E (fresh E) ops).1
    let a := step E s .runAccumulated
    let b := step E s (.runString (render (pending (ops.map past))))
    a.2 = b.2 ∧ { a.1 with acc := [], clearAcc := false } = b.1 := by
  have hr : RunsCame (session E (fresh E) ops).2 := by
    refine session_inv E (fun s h => NoThrow h → s.dead = false ∧ RunsCame h) (fresh E)
      (fun _ => ⟨rfl, fun p hp => by simp at hp⟩) ?_ ops hn |>.2
    intro s h o ih hz
    have hi := ih (fun p hp => hz p (by simp [hp]))
    have hd := step_defined E s o hi.1
    have ht := hz (o, (step E s o).2) (by simp)
    rcases hd with hd | ⟨n, hd, hd'⟩
    · exact absurd hd ht
    · refine ⟨hd', fun p hp ho => ?_⟩
      rcases List.mem_append.mp hp with hp | hp
      · exact hi.2 p hp ho
      · rw [List.mem_singleton.mp hp]; exact ⟨n, hd⟩
  have hacc := accumulated_partial E ops hr
  have hdead := dead_session E ops hn
  have hdb := dbLoaded_session E ops o hl
  generalize (session E (fresh E) ops).1 = s at hc hacc hdead hdb ⊢
  rw [← hacc] at hc ⊢
  have h1 := runAccumulated_calm E s hdb hdead hc
  have h2 := after_body_dropAcc E "RunString".toList s.acc s hdb hdead hc
  dsimp only
  show (runAccumulated E s).2 = (runString E s.acc s).2 ∧ _ = (runString E s.acc s).1
  have h3 : runString E s.acc s = _ := h2
  rw [h3]
  have h4 : step E s .runAccumulated = _ := h1
  rw [h4]
  rw [h1]
  exact ⟨rfl, rfl⟩

/-! ## Lines -/

/-- Count and lines of output, log and the current selected output show the string that goes
with them, if the last run or load returned 0.

Missing: a run or load that failed, see `Violations`. -/
theorem lines_partial (E : Engine χ) (hE : Tidy E) (ops : List Op)
    (h : LastZero (session E (fresh E) ops).2) :
    let s := (session E (fresh E) ops).1
    (s.sw.outStr = true → Shows (getOutputString s) s.outLines.length (lineAt s.outLines)) ∧
    (s.sw.logStr = true → Shows (getLogString s) s.logLines.length (lineAt s.logLines)) ∧
    ((wish ops).2 (wish ops).1 ≠ none → Shows (getSelString s) (selLineCount s) (selLineAt s)) := by
  have hg := good_session E hE ops h
  obtain ⟨hw1, hw2⟩ := wish_session E ops
  generalize (session E (fresh E) ops).1 = s at hg hw1 hw2 ⊢
  dsimp only
  refine ⟨fun ho => ?_, fun ho => ?_, fun ho => ?_⟩
  · unfold getOutputString
    rw [if_neg (by rw [ho]; decide)]
    exact shows_lineAt hg.1
  · unfold getLogString
    rw [if_neg (by rw [ho]; decide)]
    exact shows_lineAt hg.2.1
  · rw [← hw1, ← hw2] at ho
    have h3 := hg.2.2 s.cur
    have ht : getSelString s = (OMap.find s.selStr s.cur).getD [] := by
      unfold getSelString
      cases hf : OMap.find s.selOn s.cur with
      | none => exact absurd hf ho
      | some b => rfl
    have hcnt : selLineCount s = ((OMap.find s.selLines s.cur).getD []).length := by
      unfold selLineCount
      cases OMap.find s.selLines s.cur <;> rfl
    have hat : ∀ i, selLineAt s i = lineAt ((OMap.find s.selLines s.cur).getD []) i := by
      intro i
      unfold selLineAt lineAt
      rw [hcnt]
      cases OMap.find s.selLines s.cur <;> rfl
    have := shows_lineAt h3
    rw [ht, hcnt, funext hat]
    exact this

/-- Right behind a run that came back, and right behind a load that returned 0, error and
warning lines show the error and the warning string. -/
theorem messages_lines_partial (E : Engine χ) (ops : List Op) (o : Op)
    (h : (runs o = true ∧ ∃ n, (step E (session E (fresh E) ops).1 o).2 = .ret n) ∨
      (loads o = true ∧ (step E (session E (fresh E) ops).1 o).2 = .ret 0)) :
    let s := (step E (session E (fresh E) ops).1 o).1
    (s.sw.errStr = true → s.sw.errorOn = true →
      Shows (getErrorString s) s.errLines.length (lineAt s.errLines)) ∧
    Shows (getWarningString s) s.warnLines.length (lineAt s.warnLines) := by
  generalize (session E (fresh E) ops).1 = s0 at h ⊢
  have key : (step E s0 o).1.errLines = getlines (step E s0 o).1.err ∧
      (step E s0 o).1.warnLines = getlines (step E s0 o).1.warn := by
    rcases h with ⟨hr, n, hn⟩ | ⟨hl, hz⟩
    · obtain ⟨r, i, s1, c, _, e⟩ := run_shape E s0 o hr
      rw [e] at hn ⊢
      exact errLines_run E r i s1 n hn
    · obtain ⟨r, i, e⟩ := load_shape E s0 o hl
      rw [e] at hz ⊢
      obtain ⟨t, s', x, w, hr, _⟩ := load_zero E r i s0 hz
      have := errLines_run E "RunString".toList (.inl t) s' 0 (by rw [hr])
      rw [hr] at this
      exact this
  generalize (step E s0 o).1 = s at key ⊢
  dsimp only
  refine ⟨fun h1 h2 => ?_, shows_lineAt key.2⟩
  unfold getErrorString
  rw [if_neg (by rw [h2]; decide), if_neg (by rw [h1]; decide)]
  exact shows_lineAt key.1

/-! ## What a run reports -/

theorem step_run_of (E : Engine χ) (ops : List Op) (ol o : Op) (t : Text)
    (hn : NoThrow (session E (fresh E) ops).2)
    (hl : lastOf loads (session E (fresh E) ops).2 = some (ol, .ret 0))
    (ho : inputOf (session E (fresh E) ops).1.acc o = some t)
    (hc : ∀ w, (E.run (session E (fresh E) ops).1.eng (session E (fresh E) ops).1.sw t).2.1 ≠
      .thrown w) :
    ∃ a c, step E (session E (fresh E) ops).1 o =
      ({ ended E t (session E (fresh E) ops).1 with acc := a, clearAcc := c },
        .ret (ended E t (session E (fresh E) ops).1).inputErrors) :=
  step_run E _ o t ho (dbLoaded_session E ops ol hl) (dead_session E ops hn) hc

theorem ended_texts (E : Engine χ) (t : Text) (s : St χ) :
    (ended E t s).err = (ran E t s).err ∧ (ended E t s).warn = (ran E t s).warn ∧
    (ended E t s).out = (ran E t s).out ∧ (ended E t s).log = (ran E t s).log ∧
    (ended E t s).sw = s.sw ∧ (ended E t s).selStr = (ran E t s).selStr ∧
    (ended E t s).dump = (ran E t s).dump ∧ (ended E t s).selOn = s.selOn ∧
    (ended E t s).eng = (E.run s.eng s.sw t).2.2 := by
  have hk := same_apps (base s) (said (E.run s.eng s.sw t).1 (E.run s.eng s.sw t).2.1)
  have hsw : (ran E t s).sw = s.sw := hk.sw
  have hson : (ran E t s).selOn = s.selOn := hk.selOn
  have heng : (ran E t s).eng = (E.run s.eng s.sw t).2.2 := rfl
  have hf : ∀ q : St χ, (finish E q).err = q.err ∧ (finish E q).warn = q.warn ∧
      (finish E q).out = q.out ∧ (finish E q).log = q.log ∧ (finish E q).sw = q.sw ∧
      (finish E q).selStr = q.selStr ∧ (finish E q).dump = q.dump ∧
      (finish E q).selOn = q.selOn ∧ (finish E q).eng = q.eng := by
    intro q
    unfold finish updateErrors
    dsimp only
    split_ifs <;> exact ⟨rfl, rfl, rfl, rfl, rfl, rfl, rfl, rfl, rfl⟩
  unfold ended
  cases (E.run s.eng s.sw t).2.1 with
  | fin =>
    obtain ⟨h1, h2, h3, h4, h5, h6, h7, h8, h9⟩ := hf (ran E t s)
    exact ⟨h1, h2, h3, h4, h5.trans hsw, h6, h7, h8.trans hson, h9.trans heng⟩
  | stop m => exact ⟨rfl, rfl, rfl, rfl, hsw, rfl, rfl, hson, heng⟩
  | thrown w => exact ⟨rfl, rfl, rfl, rfl, hsw, rfl, rfl, hson, heng⟩

/-- A run reports exactly what the engine said while it ran: errors and warnings, the message
that stopped it included, output and log in order.  It returns 0 if and only if there was
nothing to complain about, as far as the number can tell.

Missing: runs left by an exception; and what a load reports, see `Violations`. -/
theorem reports_partial (E : Engine χ) (ops : List Op) (ol o : Op) (t : Text)
    (hn : NoThrow (session E (fresh E) ops).2)
    (hl : lastOf loads (session E (fresh E) ops).2 = some (ol, .ret 0))
    (ho : inputOf (session E (fresh E) ops).1.acc o = some t)
    (hc : ∀ w, (E.run (session E (fresh E) ops).1.eng (session E (fresh E) ops).1.sw t).2.1 ≠
      .thrown w) :
    let s := (session E (fresh E) ops).1
    let r := E.run s.eng s.sw t
    let evs := said r.1 r.2.1
    let s' := (step E s o).1
    (s.sw.errStr = true → s.sw.errorOn = true →
      getErrorString s' = shown "ERROR: " (errors evs)) ∧
    getWarningString s' = shown "WARNING: " (warnings evs) ∧
    (s.sw.outStr = true → getOutputString s' = printed evs) ∧
    (s.sw.logStr = true → getLogString s' = logged s.logOn evs) ∧
    s'.eng = r.2.2 ∧
    (errors evs ≠ [] → ∃ n, (step E s o).2 = .ret n ∧ n ≠ 0) ∧
    (errors evs = [] → .inputError ∉ evs → (step E s o).2 = .ret 0) := by
  obtain ⟨a, c, e⟩ := step_run_of E ops ol o t hn hl ho hc
  generalize (session E (fresh E) ops).1 = s at e ⊢
  dsimp only
  obtain ⟨h1, h2, h3, h4, h5, _, _, _, h9⟩ := ended_texts E t s
  rw [e]
  have hie := inputErrors_ended E t s
  refine ⟨fun g1 g2 => ?_, ?_, fun g => ?_, fun g => ?_, h9, fun g => ?_, fun g1 g2 => ?_⟩
  · unfold getErrorString
    dsimp only
    rw [h5, if_neg (by rw [g2]; decide), if_neg (by rw [g1]; decide), h1]
    refine (apps_err (base s) _).trans ?_
    rw [show (base s).err = [] from rfl, show (base s).sw = s.sw from rfl, g1, g2]
    rfl
  · unfold getWarningString
    dsimp only
    rw [h2]
    exact apps_warn (base s) _
  · unfold getOutputString
    dsimp only
    rw [h5, if_neg (by rw [g]; decide), h3]
    refine (apps_out (base s) _).trans ?_
    rw [show (base s).out = [] from rfl, show (base s).sw = s.sw from rfl, g]
    rfl
  · unfold getLogString
    dsimp only
    rw [h5, if_neg (by rw [g]; decide), h4]
    refine (apps_log (base s) _).trans ?_
    rw [show (base s).log = [] from rfl, show (base s).sw = s.sw from rfl, g]
    rfl
  · refine ⟨_, rfl, ?_⟩
    rw [hie]
    refine inputErrors_pos ?_
    rw [ran_ioErr]
    exact fun h0 => g (List.length_eq_zero_iff.mp h0)
  · rw [hie]
    have := apps_quiet (base s) _ rfl rfl g1 g2
    exact congrArg Res.ret this

/-! ## The database -/

/-- Without a database no run reaches the engine: it returns 1 and says so.  After a load that
returned 0 a run is run.

Missing: loads that returned something else, see `Violations`. -/
theorem database_partial (E : Engine χ) (ops : List Op) (o : Op) (ho : runs o = true) :
    let s := (session E (fresh E) ops).1
    let h := (session E (fresh E) ops).2
    (NeverRead h → (step E s o).2 = .ret 1 ∧ (step E s o).1.eng = s.eng ∧
      (s.sw.errStr = true → s.sw.errorOn = true → ∃ who, getErrorString (step E s o).1 =
        shown "ERROR: " [who ++ ": No database is loaded".toList])) ∧
    (∀ ol t, lastOf loads h = some (ol, .ret 0) → NoThrow h → inputOf s.acc o = some t →
      (∀ w, (E.run s.eng s.sw t).2.1 ≠ .thrown w) →
      (step E s o).1.eng = (E.run s.eng s.sw t).2.2) := by
  dsimp only
  refine ⟨fun hnr => ?_, fun ol t hl hn hi hc => ?_⟩
  · have hdb := notLoaded_session E ops hnr
    generalize (session E (fresh E) ops).1 = s at hdb ⊢
    obtain ⟨r, i, s0, c, hs, e⟩ := run_shape E s o ho
    have hdb0 : s0.dbLoaded = false := by rcases hs with hs | hs <;> rw [hs] <;> exact hdb
    have heng : s0.eng = s.eng := by rcases hs with hs | hs <;> rw [hs] <;> rfl
    have hsw : s0.sw = s.sw := by rcases hs with hs | hs <;> rw [hs] <;> rfl
    rw [e, body_not_loaded E r i s0 hdb0, after_none]
    have hk := same_errorMsg { release s0 with inErr := 1 } (r ++ ": No database is loaded".toList)
    refine ⟨?_, ?_, fun g1 g2 => ⟨r, ?_⟩⟩
    · have h1 := errorMsg_inErr { release s0 with inErr := 1 } (r ++ ": No database is loaded".toList)
      have h2 : (errorMsg { release s0 with inErr := 1 }
          (r ++ ": No database is loaded".toList)).inErr = 1 := by
        rw [h1]
        split_ifs <;> rfl
      unfold St.inputErrors
      rw [h2]
      rfl
    · rw [← heng]
      unfold errorMsg outputMsg logMsg updateErrors
      dsimp only
      split_ifs <;> rfl
    · have hsw' : (errorMsg { release s0 with inErr := 1 }
          (r ++ ": No database is loaded".toList)).sw = s.sw := by
        rw [hk.sw]; exact hsw
      have herr := errorMsg_err { release s0 with inErr := 1 } (r ++ ": No database is loaded".toList)
      rw [show ({ release s0 with inErr := 1 } : St χ).err = [] from rfl,
        show ({ release s0 with inErr := 1 } : St χ).sw = s0.sw from rfl, hsw, g1, g2,
        errText_shown] at herr
      unfold getErrorString updateErrors
      dsimp only
      rw [hsw', if_neg (by rw [g2]; decide), if_neg (by rw [g1]; decide), herr]
      rfl
  · exact (reports_partial E ops ol o t hn hl hi hc).2.2.2.2.1

/-! ## Components -/

/-- The components listed are those of the engine's state, unless the last run failed.

Missing: after a failed run, see `Violations`. -/
theorem components_partial (E : Engine χ) (ops : List Op)
    (h : LastCame (session E (fresh E) ops).2) :
    let s := (session E (fresh E) ops).1
    (step E s .components).1.comps = E.components s.eng ∧
      (step E s .components).1.eng = s.eng := by
  have hg := comps_session E ops h
  generalize (session E (fresh E) ops).1 = s at hg ⊢
  dsimp only
  simp only [step, listComponents]
  split_ifs with hu
  · exact ⟨rfl, rfl⟩
  · rcases hg with hg | hg
    · exact absurd hg hu
    · exact ⟨hg, rfl⟩

/-! ## Switches -/

/-- Every switch has the value the user gave it last, loads in between or not.

Missing: loads left by an exception, see `Violations`. -/
theorem switches_partial (E : Engine χ) (ops : List Op) (w : Switch)
    (h : LoadsCame (session E (fresh E) ops).2) :
    Value (session E (fresh E) ops).1.sw w =
      (match lastSet w ops with
        | some b => b
        | none => atStart w) := by
  rw [sw_session E ops w h]
  cases lastSet w ops <;> rfl

/-! ## The dump -/

/-- Count and lines of the dump show the dump string, in every session. -/
theorem dump_lines (E : Engine χ) (ops : List Op) :
    let s := (session E (fresh E) ops).1
    s.sw.dumpStr = true → Shows (getDumpString s) s.dumpLines.length (lineAt s.dumpLines) := by
  have hd := dump_session E ops
  generalize (session E (fresh E) ops).1 = s at hd ⊢
  dsimp only
  intro ho
  unfold getDumpString
  rw [if_neg (by rw [ho]; decide)]
  exact shows_lineAt hd

/-- A run that comes back leaves in the dump string what was dumped since the last dump that
did not ask to be appended. -/
theorem dump_text (E : Engine χ) (ops : List Op) (ol o : Op) (t : Text)
    (hn : NoThrow (session E (fresh E) ops).2)
    (hl : lastOf loads (session E (fresh E) ops).2 = some (ol, .ret 0))
    (ho : inputOf (session E (fresh E) ops).1.acc o = some t)
    (hc : ∀ w, (E.run (session E (fresh E) ops).1.eng (session E (fresh E) ops).1.sw t).2.1 ≠
      .thrown w)
    (hs : (session E (fresh E) ops).1.sw.dumpStr = true) :
    let s := (session E (fresh E) ops).1
    Dumped (getDumpString s) (dumps (E.run s.eng s.sw t).1) (getDumpString (step E s o).1) := by
  obtain ⟨a, c, e⟩ := step_run_of E ops ol o t hn hl ho hc
  generalize (session E (fresh E) ops).1 = s at e hs hc ⊢
  dsimp only
  obtain ⟨_, _, _, _, h5, _, h7, _, _⟩ := ended_texts E t s
  have key := (apps_dump (base s) (said (E.run s.eng s.sw t).1 (E.run s.eng s.sw t).2.1)).2 hs
  have hd : dumps (said (E.run s.eng s.sw t).1 (E.run s.eng s.sw t).2.1) =
      dumps (E.run s.eng s.sw t).1 := by
    cases (E.run s.eng s.sw t).2.1 with
    | fin => rfl
    | stop m => simp [said, dumps, List.filterMap_append]
    | thrown w => rfl
  rw [hd] at key
  rw [e]
  unfold getDumpString
  dsimp only
  rw [h5, h7, if_neg (by rw [hs]; decide), if_neg (by rw [hs]; decide)]
  exact key

/-! ## Selected-output strings -/

/-- Behind a run the string of selected output `n` holds what was written to it, if its
string was turned on, and nothing if it was turned off; for every `n` whose switch was set as
that of the selected output that was current during the run.

Missing: the other numbers, see `Violations`. -/
theorem selected_strings_partial (E : Engine χ) (ops : List Op) (ol o : Op) (t : Text)
    (hn : NoThrow (session E (fresh E) ops).2)
    (hl : lastOf loads (session E (fresh E) ops).2 = some (ol, .ret 0))
    (ho : inputOf (session E (fresh E) ops).1.acc o = some t)
    (hc : ∀ w, (E.run (session E (fresh E) ops).1.eng (session E (fresh E) ops).1.sw t).2.1 ≠
      .thrown w) (n : Int) (h0 : 0 ≤ n) (b : Bool) (hb : (wish ops).2 n = some b)
    (hcur : (wish ops).2 (wish ops).1 = some b) :
    let s := (session E (fresh E) ops).1
    getSelString (step E (step E s o).1 (.setCurrent n)).1 =
      if b then punched n s.punchOn (E.run s.eng s.sw t).1 else [] := by
  obtain ⟨hw1, hw2⟩ := wish_session E ops
  obtain ⟨a, c, e⟩ := step_run_of E ops ol o t hn hl ho hc
  generalize (session E (fresh E) ops).1 = s at e hc hw1 hw2 ⊢
  dsimp only
  obtain ⟨_, _, _, _, _, h6, _, h8, _⟩ := ended_texts E t s
  have key := apps_selStr (base s) (said (E.run s.eng s.sw t).1 (E.run s.eng s.sw t).2.1) n
  have hd : punched n s.punchOn (said (E.run s.eng s.sw t).1 (E.run s.eng s.sw t).2.1) =
      punched n s.punchOn (E.run s.eng s.sw t).1 := by
    cases (E.run s.eng s.sw t).2.1 with
    | fin => rfl
    | stop m =>
      have hap : ∀ (evs : List Ev) (q : Bool), pieces turnPunch (punchPiece n) q (evs ++ [.err m]) =
          pieces turnPunch (punchPiece n) q evs := by
        intro evs
        induction evs with
        | nil => intro q; simp [pieces, punchPiece]
        | cons x xs ih => intro q; simp only [List.cons_append, pieces, ih]
      rw [punched_eq, punched_eq]
      exact hap _ _
    | thrown w => rfl
  rw [e]
  simp only [step, setCurrent, if_pos h0]
  unfold getSelString
  dsimp only
  rw [h8, hw2, hb]
  dsimp only
  rw [h6]
  refine key.trans ?_
  rw [show (base s).selStr = [] from rfl, show (base s).selOn = s.selOn from rfl,
    show (base s).cur = s.cur from rfl, show (base s).punchOn = s.punchOn from rfl, hd, hw1, hw2,
    hcur]
  rfl

/-! ## Definedness -/

/-- As long as no call was left by an exception every call comes back or throws; none runs
into undefined behaviour.

Missing: the calls after an exception, see `Violations`. -/
theorem defined_partial (E : Engine χ) (ops : List Op) (o : Op)
    (h : NoThrow (session E (fresh E) ops).2) :
    (step E (session E (fresh E) ops).1 o).2 ≠ .ub := by
  rcases step_defined E _ o (dead_session E ops h) with ht | ⟨n, ht, _⟩ <;> rw [ht] <;> simp

end Verif.IPq
