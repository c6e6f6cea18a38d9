import Verif.IPq.Spec
import Mathlib.Tactic.SplitIfs
import Mathlib.Data.List.Induction

/-!
# Lemmas: lines, messages and what calls leave alone
-/

namespace Verif.IPq

open Verif.IPq.Spec

variable {χ : Type}

/-! ## Lines -/

theorem readLines_spec (cur t : Text) (hc : nl ∉ cur) :
    ∃ full last, (∀ l ∈ full, nl ∉ l) ∧ nl ∉ last ∧ cur ++ t = render full ++ last ∧
      readLines cur t = full ++ (if last = [] then [] else [last]) := by
  induction t generalizing cur with
  | nil =>
    refine ⟨[], cur, by simp, hc, by simp [render], ?_⟩
    simp [readLines]
  | cons c r ih =>
    by_cases h : c = nl
    · obtain ⟨full, last, h1, h2, h3, h4⟩ := ih [] (by simp)
      refine ⟨cur :: full, last, ?_, h2, ?_, ?_⟩
      · intro l hl
        rcases List.mem_cons.mp hl with rfl | hl
        · exact hc
        · exact h1 l hl
      · simp only [List.nil_append] at h3
        rw [h3, h]; simp [render]
      · simp [readLines, h, h4]
    · obtain ⟨full, last, h1, h2, h3, h4⟩ := ih (cur ++ [c]) (by
        simp only [List.mem_append, List.mem_singleton, not_or]
        exact ⟨hc, fun e => h e.symm⟩)
      refine ⟨full, last, h1, h2, ?_, ?_⟩
      · rw [← h3]; simp
      · simp [readLines, h, h4]

theorem linesOf_getlines (t : Text) : LinesOf t (getlines t) := by
  obtain ⟨full, last, h1, h2, h3, h4⟩ := readLines_spec [] t (by simp)
  exact ⟨full, last, h1, h2, by simpa using h3, h4⟩

@[simp] theorem getlines_nil : getlines [] = [] := rfl

theorem lineAt_spec (ls : List Text) :
    (∀ i : Nat, ∀ l, ls[i]? = some l → lineAt ls i = l) ∧
    ∀ i : Int, i < 0 ∨ (ls.length : Int) ≤ i → lineAt ls i = [] := by
  constructor
  · intro i l h
    have hi : i < ls.length := (List.getElem?_eq_some_iff.mp h).1
    unfold lineAt
    rw [if_neg (by omega)]
    simp [h]
  · intro i h
    unfold lineAt
    rw [if_pos h]

theorem shows_lineAt {t : Text} {ls : List Text} (h : ls = getlines t) :
    Shows t ls.length (lineAt ls) :=
  ⟨ls, h ▸ linesOf_getlines t, rfl, (lineAt_spec ls).1, (lineAt_spec ls).2⟩

/-! ## What messages leave alone -/

/-- The parts of the state that messages and the engine's own switches change. -/
structure Same (s s' : St χ) : Prop where
  dbLoaded : s'.dbLoaded = s.dbLoaded
  clearAcc : s'.clearAcc = s.clearAcc
  updComp : s'.updComp = s.updComp
  sw : s'.sw = s.sw
  acc : s'.acc = s.acc
  errLines : s'.errLines = s.errLines
  warnLines : s'.warnLines = s.warnLines
  outLines : s'.outLines = s.outLines
  logLines : s'.logLines = s.logLines
  cur : s'.cur = s.cur
  selOn : s'.selOn = s.selOn
  selLines : s'.selLines = s.selLines
  comps : s'.comps = s.comps
  dead : s'.dead = s.dead
  eng : s'.eng = s.eng

theorem Same.rfl' (s : St χ) : Same s s := by constructor <;> rfl

theorem Same.comp {a b c : St χ} (h : Same a b) (k : Same b c) : Same a c := by
  constructor
  · rw [k.dbLoaded, h.dbLoaded]
  · rw [k.clearAcc, h.clearAcc]
  · rw [k.updComp, h.updComp]
  · rw [k.sw, h.sw]
  · rw [k.acc, h.acc]
  · rw [k.errLines, h.errLines]
  · rw [k.warnLines, h.warnLines]
  · rw [k.outLines, h.outLines]
  · rw [k.logLines, h.logLines]
  · rw [k.cur, h.cur]
  · rw [k.selOn, h.selOn]
  · rw [k.selLines, h.selLines]
  · rw [k.comps, h.comps]
  · rw [k.dead, h.dead]
  · rw [k.eng, h.eng]

theorem same_outputMsg (s : St χ) (t : Text) : Same s (outputMsg s t) := by
  unfold outputMsg; split_ifs <;> constructor <;> rfl

theorem same_logMsg (s : St χ) (t : Text) : Same s (logMsg s t) := by
  unfold logMsg; split_ifs <;> constructor <;> rfl

theorem same_errorMsg (s : St χ) (m : Text) : Same s (errorMsg s m) := by
  unfold errorMsg
  have h1 : Same s (if s.inputErrors = 0 then { s with inErr := 1 } else s) := by
    split_ifs <;> constructor <;> rfl
  refine h1.comp ((same_outputMsg _ (errText m)).comp ((same_logMsg _ (errText m)).comp ?_))
  dsimp only
  split_ifs <;> constructor <;> rfl

theorem same_warningMsg (s : St χ) (m : Text) : Same s (warningMsg s m) := by
  unfold warningMsg
  refine (same_logMsg s (warnText m)).comp ((same_outputMsg _ (warnText m)).comp ?_)
  constructor <;> rfl

theorem same_app (s : St χ) (e : Ev) : Same s (e.app s) := by
  cases e with
  | out t => exact same_outputMsg s t
  | log t => exact same_logMsg s t
  | warn m => exact same_warningMsg s m
  | err m => exact same_errorMsg s m
  | punch n t => simp only [Ev.app, punchMsg]; split_ifs <;> constructor <;> rfl
  | dump a t => simp only [Ev.app, dumpStep]; split_ifs <;> constructor <;> rfl
  | _ => constructor <;> rfl

theorem apps_append (s : St χ) (a b : List Ev) : apps s (a ++ b) = apps (apps s a) b := by
  simp [apps, List.foldl_append]

theorem apps_cons (s : St χ) (e : Ev) (es : List Ev) : apps s (e :: es) = apps (e.app s) es := rfl

theorem same_apps (s : St χ) (evs : List Ev) : Same s (apps s evs) := by
  induction evs generalizing s with
  | nil => exact Same.rfl' s
  | cons e es ih => exact (same_app s e).comp (ih _)

/-! ## What messages add -/

theorem shown_append (k : String) (a b : List Text) : shown k (a ++ b) = shown k a ++ shown k b := by
  simp [shown]

theorem errText_shown (m : Text) : errText m = shown "ERROR: " [m] := by
  unfold errText shown nl
  rw [List.map_cons, List.map_nil, List.flatten_cons, List.flatten_nil, List.append_nil]

theorem warnText_shown (m : Text) : warnText m = shown "WARNING: " [m] := by
  unfold warnText shown nl
  rw [List.map_cons, List.map_nil, List.flatten_cons, List.flatten_nil, List.append_nil]

theorem errorMsg_err (s : St χ) (m : Text) :
    (errorMsg s m).err = s.err ++ (if s.sw.errStr && s.sw.errorOn then errText m else []) := by
  unfold errorMsg outputMsg logMsg
  dsimp only
  split_ifs <;> simp_all

theorem errorMsg_warn (s : St χ) (m : Text) : (errorMsg s m).warn = s.warn := by
  unfold errorMsg outputMsg logMsg
  dsimp only
  split_ifs <;> rfl

theorem errorMsg_out (s : St χ) (m : Text) :
    (errorMsg s m).out = s.out ++ (if s.sw.outStr then errText m else []) := by
  unfold errorMsg outputMsg logMsg
  dsimp only
  split_ifs <;> simp_all

theorem errorMsg_log (s : St χ) (m : Text) :
    (errorMsg s m).log = s.log ++ (if s.sw.logStr && s.logOn then errText m else []) := by
  unfold errorMsg outputMsg logMsg
  dsimp only
  split_ifs <;> simp_all

theorem errorMsg_ioErr (s : St χ) (m : Text) : (errorMsg s m).ioErr = s.ioErr + 1 := by
  unfold errorMsg outputMsg logMsg
  dsimp only
  split_ifs <;> rfl

theorem errorMsg_rest (s : St χ) (m : Text) :
    (errorMsg s m).logOn = s.logOn ∧ (errorMsg s m).punchOn = s.punchOn ∧
    (errorMsg s m).selStr = s.selStr ∧ (errorMsg s m).dump = s.dump ∧
    (errorMsg s m).dumpLines = s.dumpLines := by
  unfold errorMsg outputMsg logMsg
  dsimp only
  split_ifs <;> exact ⟨rfl, rfl, rfl, rfl, rfl⟩

theorem errorMsg_inputErrors (s : St χ) (m : Text) : (errorMsg s m).inputErrors ≠ 0 := by
  unfold St.inputErrors
  split_ifs with h
  · rw [errorMsg_ioErr]; omega
  · exact h

theorem errorMsg_inErr (s : St χ) (m : Text) :
    (errorMsg s m).inErr = if s.inputErrors = 0 then 1 else s.inErr := by
  unfold errorMsg outputMsg logMsg
  dsimp only
  split_ifs <;> rfl

theorem warningMsg_all (s : St χ) (m : Text) :
    (warningMsg s m).warn = s.warn ++ warnText m ∧
    (warningMsg s m).err = s.err ∧
    (warningMsg s m).out = s.out ++ (if s.sw.outStr then warnText m else []) ∧
    (warningMsg s m).log = s.log ++ (if s.sw.logStr && s.logOn then warnText m else []) ∧
    (warningMsg s m).ioErr = s.ioErr ∧ (warningMsg s m).inErr = s.inErr ∧
    (warningMsg s m).logOn = s.logOn ∧ (warningMsg s m).punchOn = s.punchOn ∧
    (warningMsg s m).selStr = s.selStr ∧ (warningMsg s m).dump = s.dump ∧
    (warningMsg s m).dumpLines = s.dumpLines := by
  unfold warningMsg outputMsg logMsg
  dsimp only
  split_ifs <;> simp_all

/-- One thing the engine does, part by part. -/
theorem app_err (s : St χ) (e : Ev) :
    (e.app s).err = s.err ++ (if s.sw.errStr && s.sw.errorOn then shown "ERROR: " (errors [e]) else []) := by
  cases e <;> simp only [Ev.app, errors, List.filterMap_cons, List.filterMap_nil]
  case err m => rw [errorMsg_err, errText_shown]
  case warn m => rw [(warningMsg_all s m).2.1]; simp [shown]
  case out t => unfold outputMsg; split_ifs <;> simp [shown]
  case log t => unfold logMsg; split_ifs <;> simp [shown]
  case punch n t => unfold punchMsg; split_ifs <;> simp [shown]
  case dump a t => unfold dumpStep; split_ifs <;> simp [shown]
  all_goals simp [shown]

theorem app_warn (s : St χ) (e : Ev) : (e.app s).warn = s.warn ++ shown "WARNING: " (warnings [e]) := by
  cases e <;> simp only [Ev.app, warnings, List.filterMap_cons, List.filterMap_nil]
  case err m => rw [errorMsg_warn]; simp [shown]
  case warn m => rw [(warningMsg_all s m).1, warnText_shown]
  case out t => unfold outputMsg; split_ifs <;> simp [shown]
  case log t => unfold logMsg; split_ifs <;> simp [shown]
  case punch n t => unfold punchMsg; split_ifs <;> simp [shown]
  case dump a t => unfold dumpStep; split_ifs <;> simp [shown]
  all_goals simp [shown]

theorem app_out (s : St χ) (e : Ev) :
    (e.app s).out = s.out ++ (if s.sw.outStr then printed [e] else []) := by
  cases e <;> simp only [Ev.app, printed, List.map_cons, List.map_nil, List.flatten_cons,
    List.flatten_nil, List.append_nil]
  case err m => rw [errorMsg_out, errText_shown]
  case warn m => rw [(warningMsg_all s m).2.2.1, warnText_shown]
  case out t => unfold outputMsg; split_ifs <;> simp
  case log t => unfold logMsg; split_ifs <;> simp
  case punch n t => unfold punchMsg; split_ifs <;> simp
  case dump a t => unfold dumpStep; split_ifs <;> simp
  all_goals simp

/-- What one event adds to the log if the log is on. -/
def logPiece : Ev → Text
  | .log t => t
  | .warn m => shown "WARNING: " [m]
  | .err m => shown "ERROR: " [m]
  | _ => []

theorem app_log (s : St χ) (e : Ev) :
    (e.app s).log = s.log ++ (if s.sw.logStr && s.logOn then logPiece e else []) := by
  cases e <;> simp only [Ev.app, logPiece]
  case err m => rw [errorMsg_log, errText_shown]
  case warn m => rw [(warningMsg_all s m).2.2.2.1, warnText_shown]
  case out t => unfold outputMsg; split_ifs <;> simp
  case log t => unfold logMsg; split_ifs <;> simp
  case punch n t => unfold punchMsg; split_ifs <;> simp
  case dump a t => unfold dumpStep; split_ifs <;> simp
  all_goals simp

theorem app_logOn (s : St χ) (e : Ev) : (e.app s).logOn = (turnLog e).getD s.logOn := by
  cases e <;> simp only [Ev.app, turnLog, Option.getD]
  case err m => exact (errorMsg_rest s m).1
  case warn m => exact (warningMsg_all s m).2.2.2.2.2.2.1
  case out t => unfold outputMsg; split_ifs <;> rfl
  case log t => unfold logMsg; split_ifs <;> rfl
  case punch n t => unfold punchMsg; split_ifs <;> rfl
  case dump a t => unfold dumpStep; split_ifs <;> rfl

theorem app_punchOn (s : St χ) (e : Ev) : (e.app s).punchOn = (turnPunch e).getD s.punchOn := by
  cases e <;> simp only [Ev.app, turnPunch, Option.getD]
  case err m => exact (errorMsg_rest s m).2.1
  case warn m => exact (warningMsg_all s m).2.2.2.2.2.2.2.1
  case out t => unfold outputMsg; split_ifs <;> rfl
  case log t => unfold logMsg; split_ifs <;> rfl
  case punch n t => unfold punchMsg; split_ifs <;> rfl
  case dump a t => unfold dumpStep; split_ifs <;> rfl

/-- What one event adds to selected output `n` if selected output is on. -/
def punchPiece (n : Int) : Ev → Text
  | .punch k t => if k = n then t else []
  | _ => []

theorem addDefs_find (m : OMap.SMap Int Text) (ns : List Int) (n : Int) :
    (OMap.find (addDefs m ns) n).getD [] = (OMap.find m n).getD [] := by
  induction ns generalizing m with
  | nil => rfl
  | cons k ns ih =>
    simp only [addDefs]
    rw [ih]
    cases h : OMap.find m k with
    | some v => rfl
    | none =>
      dsimp only
      rw [OMap.find_insert]
      split_ifs with hk
      · rw [hk, h]; rfl
      · rfl

theorem app_selStr (s : St χ) (e : Ev) (n : Int) :
    (OMap.find (e.app s).selStr n).getD [] = (OMap.find s.selStr n).getD [] ++
      (if (OMap.find s.selOn s.cur).getD false && s.punchOn then punchPiece n e else []) := by
  cases e <;> simp only [Ev.app, punchPiece]
  case err m => rw [(errorMsg_rest s m).2.2.1]; simp
  case warn m => rw [(warningMsg_all s m).2.2.2.2.2.2.2.2.1]; simp
  case out t => unfold outputMsg; split_ifs <;> simp
  case log t => unfold logMsg; split_ifs <;> simp
  case punch k t =>
    unfold punchMsg selStringOn
    split_ifs with h1 h2
    · dsimp only
      rw [OMap.find_insert, if_pos h2.symm, h2]; rfl
    · dsimp only
      rw [OMap.find_insert, if_neg (fun h => h2 h.symm)]; simp
    all_goals simp
  case dump a t => unfold dumpStep; split_ifs <;> simp
  case defs ns => rw [addDefs_find]; simp
  all_goals simp

theorem app_dump (s : St χ) (e : Ev) :
    ((e.app s).dump = if s.sw.dumpStr then
        (match e with
          | .dump true t => s.dump ++ t
          | .dump false t => t
          | _ => s.dump) else s.dump) ∧
    (s.dumpLines = getlines s.dump → (e.app s).dumpLines = getlines (e.app s).dump) := by
  cases e <;> simp only [Ev.app]
  case err m =>
    rw [(errorMsg_rest s m).2.2.2.1, (errorMsg_rest s m).2.2.2.2]; exact ⟨by simp, id⟩
  case warn m =>
    rw [(warningMsg_all s m).2.2.2.2.2.2.2.2.2.1, (warningMsg_all s m).2.2.2.2.2.2.2.2.2.2]
    exact ⟨by simp, id⟩
  case out t => unfold outputMsg; split_ifs <;> simp
  case log t => unfold logMsg; split_ifs <;> simp
  case punch n t => unfold punchMsg; split_ifs <;> simp
  case dump a t => unfold dumpStep; cases a <;> split_ifs <;> simp_all
  all_goals simp

/-! ## What a list of events adds -/

theorem apps_err (s : St χ) (evs : List Ev) :
    (apps s evs).err =
      s.err ++ (if s.sw.errStr && s.sw.errorOn then shown "ERROR: " (errors evs) else []) := by
  induction evs generalizing s with
  | nil => simp [apps, errors, shown]
  | cons e es ih =>
    have hs := (same_app s e).sw
    rw [apps_cons, ih, app_err, hs, List.append_assoc]
    have : errors (e :: es) = errors [e] ++ errors es := by
      simp only [errors, ← List.filterMap_append]; rfl
    rw [this, shown_append]
    split_ifs <;> rfl

theorem apps_warn (s : St χ) (evs : List Ev) :
    (apps s evs).warn = s.warn ++ shown "WARNING: " (warnings evs) := by
  induction evs generalizing s with
  | nil => simp [apps, warnings, shown]
  | cons e es ih =>
    rw [apps_cons, ih, app_warn, List.append_assoc]
    have : warnings (e :: es) = warnings [e] ++ warnings es := by
      simp only [warnings, ← List.filterMap_append]; rfl
    rw [this, shown_append]

theorem apps_out (s : St χ) (evs : List Ev) :
    (apps s evs).out = s.out ++ (if s.sw.outStr then printed evs else []) := by
  induction evs generalizing s with
  | nil => simp [apps, printed]
  | cons e es ih =>
    have hs := (same_app s e).sw
    rw [apps_cons, ih, app_out, hs, List.append_assoc]
    have : printed (e :: es) = printed [e] ++ printed es := by simp [printed]
    rw [this]
    split_ifs <;> rfl

theorem onAfter_nil (f : Ev → Option Bool) (b : Bool) : onAfter f b [] = b := rfl

theorem onAfter_cons (f : Ev → Option Bool) (b : Bool) (e : Ev) (es : List Ev) :
    onAfter f b (e :: es) = onAfter f ((f e).getD b) es := by
  unfold onAfter
  cases h : f e with
  | none => simp [h]
  | some c =>
    simp only [List.filterMap_cons, h, Option.getD]
    cases h2 : es.filterMap f with
    | nil => rfl
    | cons x xs =>
      cases h3 : (x :: xs).getLast? with
      | none => simp at h3
      | some v => rw [List.getLast?_cons_cons, h3]

/-- The pieces with the switch as it is when each event happens. -/
def pieces (f : Ev → Option Bool) (g : Ev → Text) (b : Bool) : List Ev → Text
  | [] => []
  | e :: es => (if b then g e else []) ++ pieces f g ((f e).getD b) es

theorem pieces_eq (f : Ev → Option Bool) (g : Ev → Text) (b : Bool) (evs : List Ev) :
    pieces f g b evs = ((List.range evs.length).map (fun i =>
      if onAfter f b (evs.take i) then (match evs[i]? with
        | some e => g e
        | none => []) else [])).flatten := by
  induction evs generalizing b with
  | nil => rfl
  | cons e es ih =>
    rw [pieces, ih, List.length_cons, List.range_succ_eq_map]
    simp only [List.map_cons, List.map_map, List.flatten_cons, List.take_zero, onAfter_nil,
      List.getElem?_cons_zero]
    congr 3
    funext i
    simp [onAfter_cons]

theorem logged_eq (b : Bool) (evs : List Ev) : logged b evs = pieces turnLog logPiece b evs := by
  rw [pieces_eq]
  unfold logged
  congr 2
  funext i
  split_ifs
  · cases h : evs[i]? with
    | none => rfl
    | some e => cases e <;> rfl
  · rfl

theorem punched_eq (n : Int) (b : Bool) (evs : List Ev) :
    punched n b evs = pieces turnPunch (punchPiece n) b evs := by
  rw [pieces_eq]
  unfold punched
  congr 2
  funext i
  split_ifs
  · cases h : evs[i]? with
    | none => rfl
    | some e => cases e <;> rfl
  · rfl

theorem apps_log (s : St χ) (evs : List Ev) :
    (apps s evs).log = s.log ++ (if s.sw.logStr then logged s.logOn evs else []) := by
  rw [logged_eq]
  induction evs generalizing s with
  | nil => simp [apps, pieces]
  | cons e es ih =>
    have hs := (same_app s e).sw
    rw [apps_cons, ih, app_log, hs, app_logOn, pieces]
    cases s.sw.logStr <;> simp

theorem apps_selStr (s : St χ) (evs : List Ev) (n : Int) :
    (OMap.find (apps s evs).selStr n).getD [] = (OMap.find s.selStr n).getD [] ++
      (if (OMap.find s.selOn s.cur).getD false then punched n s.punchOn evs else []) := by
  rw [punched_eq]
  induction evs generalizing s with
  | nil => simp [apps, pieces]
  | cons e es ih =>
    rw [apps_cons, ih, app_selStr, (same_app s e).selOn, (same_app s e).cur, app_punchOn, pieces]
    cases (OMap.find s.selOn s.cur).getD false <;> simp

theorem apps_dump (s : St χ) (evs : List Ev) :
    (s.sw.dumpStr = false → (apps s evs).dump = s.dump) ∧
    (s.sw.dumpStr = true → Dumped s.dump (dumps evs) (apps s evs).dump) := by
  constructor
  · intro h
    induction evs generalizing s with
    | nil => rfl
    | cons e es ih =>
      rw [apps_cons, ih _ (by rw [(same_app s e).sw]; exact h), (app_dump s e).1, h]
      simp
  · intro h
    induction evs using List.reverseRecOn with
    | nil =>
      have := Dumped.appended (start := s.dump) [] (by simp)
      simpa [apps, dumps] using this
    | append_singleton es e ih =>
      have hd : dumps (es ++ [e]) = dumps es ++ dumps [e] := by
        simp [dumps, List.filterMap_append]
      rw [hd, apps_append, apps_cons]
      show Dumped _ _ (apps (e.app (apps s es)) []).dump
      show Dumped _ _ (e.app (apps s es)).dump
      rw [(app_dump (apps s es) e).1, (same_apps s es).sw, h, if_pos rfl]
      cases e with
      | dump a t =>
        cases a with
        | false =>
          have := Dumped.replaced (start := s.dump) (dumps es) t [] (by simp)
          simpa [dumps] using this
        | true =>
          have e1 : dumps [Ev.dump true t] = [(true, t)] := rfl
          rw [e1]
          dsimp only
          generalize hds : dumps es = ds at ih
          generalize (apps s es).dump = v at ih
          cases ih with
          | appended _ hall =>
            have := Dumped.appended (start := s.dump) (ds ++ [(true, t)]) (by
              intro d hd
              rcases List.mem_append.mp hd with hd | hd
              · exact hall d hd
              · simp at hd; subst hd; rfl)
            simpa [List.append_assoc] using this
          | replaced ds0 t0 ds' hall =>
            have := Dumped.replaced (start := s.dump) ds0 t0 (ds' ++ [(true, t)]) (by
              intro d hd
              rcases List.mem_append.mp hd with hd | hd
              · exact hall d hd
              · simp at hd; subst hd; rfl)
            simpa [List.append_assoc] using this
      | _ => simpa [dumps] using ih

theorem apps_dumpLines (s : St χ) (evs : List Ev) (h : s.dumpLines = getlines s.dump) :
    (apps s evs).dumpLines = getlines (apps s evs).dump := by
  induction evs generalizing s with
  | nil => exact h
  | cons e es ih => exact ih _ ((app_dump s e).2 h)

/-! ## Error counts -/

theorem app_ioErr (s : St χ) (e : Ev) : (e.app s).ioErr = s.ioErr + (errors [e]).length := by
  cases e <;> simp only [Ev.app, errors, List.filterMap_cons, List.filterMap_nil]
  case err m => rw [errorMsg_ioErr]; rfl
  case warn m => rw [(warningMsg_all s m).2.2.2.2.1]; rfl
  case out t => unfold outputMsg; split_ifs <;> rfl
  case log t => unfold logMsg; split_ifs <;> rfl
  case punch n t => unfold punchMsg; split_ifs <;> rfl
  case dump a t => unfold dumpStep; split_ifs <;> rfl
  all_goals rfl

theorem apps_ioErr (s : St χ) (evs : List Ev) :
    (apps s evs).ioErr = s.ioErr + (errors evs).length := by
  induction evs generalizing s with
  | nil => rfl
  | cons e es ih =>
    rw [apps_cons, ih, app_ioErr]
    have : errors (e :: es) = errors [e] ++ errors es := by
      simp only [errors, ← List.filterMap_append]; rfl
    rw [this, List.length_append]; omega

theorem inputErrors_pos {s : St χ} (h : s.ioErr ≠ 0) : s.inputErrors ≠ 0 := by
  unfold St.inputErrors; split_ifs with h1
  · exact h
  · exact h1

theorem app_inErr_quiet (s : St χ) (e : Ev) (h : s.inErr = 0) (h1 : errors [e] = [])
    (h2 : e ≠ .inputError) : (e.app s).inErr = 0 := by
  cases e <;> simp only [Ev.app]
  case err m => simp [errors] at h1
  case warn m => rw [(warningMsg_all s m).2.2.2.2.2.1]; exact h
  case out t => unfold outputMsg; split_ifs <;> exact h
  case log t => unfold logMsg; split_ifs <;> exact h
  case punch n t => unfold punchMsg; split_ifs <;> exact h
  case dump a t => unfold dumpStep; split_ifs <;> exact h
  case inputError => exact absurd rfl h2
  all_goals exact h

theorem apps_quiet (s : St χ) (evs : List Ev) (h : s.inErr = 0) (h0 : s.ioErr = 0)
    (h1 : errors evs = []) (h2 : Ev.inputError ∉ evs) : (apps s evs).inputErrors = 0 := by
  have hio : (apps s evs).ioErr = 0 := by rw [apps_ioErr, h0, h1]; rfl
  have hin : (apps s evs).inErr = 0 := by
    clear hio
    induction evs generalizing s with
    | nil => exact h
    | cons e es ih =>
      have hsplit : errors (e :: es) = errors [e] ++ errors es := by
        simp only [errors, ← List.filterMap_append]; rfl
      rw [hsplit] at h1
      have hb := List.append_eq_nil_iff.mp h1
      have hm := List.mem_cons.not.mp h2
      rw [apps_cons]
      refine ih _ (app_inErr_quiet s e h hb.1 (fun k => hm (Or.inl k.symm))) ?_ hb.2
        (fun k => hm (Or.inr k))
      rw [app_ioErr, hb.1, h0]; rfl
  unfold St.inputErrors
  rw [if_pos hin, hio]

end Verif.IPq
