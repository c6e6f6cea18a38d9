import Verif.IPq.Demo

/-!
# Where an instance does not do what is expected
-/

namespace Verif.IPq.Violations

open Verif.IPq Verif.IPq.Spec Verif.IPq.Demo

theorem shows_zero {t : Text} {f : Int → Text} (h : Shows t 0 f) : t = [] := by
  obtain ⟨ls, ⟨full, last, _, _, ht, hl⟩, hc, _⟩ := h
  have : ls = [] := List.length_eq_zero_iff.mp hc.symm
  rw [this] at hl
  have h2 := List.append_eq_nil_iff.mp hl.symm
  rw [ht, h2.1]
  by_cases hz : last = []
  · rw [hz]; rfl
  · have := h2.2; rw [if_neg hz] at this; simp at this

theorem shows_nil {n : Nat} {f : Int → Text} (h : Shows [] n f) : n = 0 := by
  obtain ⟨ls, ⟨full, last, _, _, ht, hl⟩, hc, _⟩ := h
  have h2 := List.append_eq_nil_iff.mp ht.symm
  have hf : full = [] := by
    cases full with
    | nil => rfl
    | cons a as => have := h2.1; simp [render] at this
  rw [hc, hl, hf, h2.2]
  rfl

/-- `accumulated`: a run left by an exception does not set `ClearAccumulated`
(`IPhreeqc.cpp:788` is behind the handlers), so the next line is added to lines that were
run. -/
theorem lines_kept_after_exception :
    let ops := [Op.loadString dGood, .accumulate ['t'], .runAccumulated, .accumulate ['a']]
    (session E (fresh E) ops).1.acc ≠ render (pending (ops.map past)) := by
  intro ops
  have h1 : pending (ops.map past) = [['a']] := by
    have : ops.map past = ([.drop, .line ['t']] ++ [.ran]) ++ [.line ['a']] := rfl
    rw [this, pending_line, staying_ran]
    rfl
  rw [h1]
  decide +kernel

/-- `lines`: a stopped run has output, log and selected-output strings, but no lines of
them: these are filled at the end of `do_run` (`IPhreeqc.cpp:1519-1557`), which the stop
skips. -/
theorem no_lines_after_stop :
    let s := (session E (fresh E) [.loadString dGood, .setSwitch .outStr true,
      .setSwitch .logStr true, .setSelString true, .runString tStop]).1
    ¬ Shows (getOutputString s) s.outLines.length (lineAt s.outLines) ∧
    ¬ Shows (getLogString s) s.logLines.length (lineAt s.logLines) ∧
    ¬ Shows (getSelString s) (selLineCount s) (selLineAt s) := by
  intro s
  refine ⟨fun h => ?_, fun h => ?_, fun h => ?_⟩
  · have h0 : s.outLines.length = 0 := by decide +kernel
    rw [h0] at h
    exact absurd (shows_zero h) (by decide +kernel)
  · have h0 : s.logLines.length = 0 := by decide +kernel
    rw [h0] at h
    exact absurd (shows_zero h) (by decide +kernel)
  · have h0 : selLineCount s = 0 := by decide +kernel
    rw [h0] at h
    exact absurd (shows_zero h) (by decide +kernel)

/-- `messages_lines`: `AccumulateLine`, and a successful `GetSelectedOutputValue`, clear the
error string but not the error lines (`IPhreeqc.cpp:95-117, 442-449`). -/
theorem old_error_lines :
    let s := (session E (fresh E) [.loadString dGood, .runString tStop]).1
    let a := (step E s (.accumulate ['a'])).1
    let v := (step E s (.selValue none)).1
    ¬ Shows (getErrorString a) a.errLines.length (lineAt a.errLines) ∧
    ¬ Shows (getErrorString v) v.errLines.length (lineAt v.errLines) := by
  intro s a v
  refine ⟨fun h => ?_, fun h => ?_⟩
  · rw [show getErrorString a = [] by decide +kernel] at h
    exact absurd (shows_nil h) (by decide +kernel)
  · rw [show getErrorString v = [] by decide +kernel] at h
    exact absurd (shows_nil h) (by decide +kernel)

/-- `messages_lines`: a load that fails does not fill the error lines; there is an error
string without lines (`IPhreeqc.cpp:578-624` has no `update_errors`). -/
theorem no_error_lines_after_load :
    let s := (session E (fresh E) [.loadString dBad]).1
    ¬ Shows (getErrorString s) s.errLines.length (lineAt s.errLines) := by
  intro s h
  have h0 : s.errLines.length = 0 := by decide +kernel
  rw [h0] at h
  exact absurd (shows_zero h) (by decide +kernel)

/-- `reports`: a warning given while the database was read is gone when the load returns:
the test run behind it clears the warnings (`IPhreeqc.cpp:1055-1070, 1155-1158`). -/
theorem database_warning_lost :
    .warn ['o', 'l', 'd'] ∈ (E.readDb E.init (fresh E).sw dGood).1 ∧
    (step E (fresh E) (.loadString dGood)).2 = .ret 0 ∧
    getWarningString (step E (fresh E) (.loadString dGood)).1 = [] := by decide +kernel

/-- `database`: a load that failed in the test run leaves `DatabaseLoaded` set; the next run
is run (`IPhreeqc.cpp:636-640`: only `load_db` sets the flag). -/
theorem failed_load_is_loaded :
    ∃ n, (step E (fresh E) (.loadString dOdd)).2 = .ret n ∧ n ≠ 0 ∧
      (step E (step E (fresh E) (.loadString dOdd)).1 (.runString tRun)).2 = .ret 0 :=
  ⟨1, by decide +kernel, by decide, by decide +kernel⟩

/-- `components`: behind a stopped run the list of components is the old one, although the
run has changed what there is (`IPhreeqc.cpp:1511`: `UpdateComponents` is set at the end of
`do_run`). -/
theorem stale_components :
    let s := (session E (fresh E) [.loadString dGood, .components, .runString tStop]).1
    (step E s .components).1.comps ≠ E.components s.eng := by decide +kernel

/-- `switches`: a load left by an exception leaves the three file switches off
(`IPhreeqc.cpp:642-647` is not reached). -/
theorem switches_lost :
    let ops := [Op.setSwitch .errFile true, .setSwitch .outFile true, .setSwitch .logFile true,
      .loadString dThrow]
    let s := (session E (fresh E) ops).1
    (lastSet .errFile ops = some true ∧ Value s.sw .errFile = false) ∧
    (lastSet .outFile ops = some true ∧ Value s.sw .outFile = false) ∧
    (lastSet .logFile ops = some true ∧ Value s.sw .logFile = false) := by decide +kernel

/-- `selected_strings`: whether a selected output is collected depends on the switch of the
current one (`IPhreeqc.cpp:1837-1846` looks up `CurrentSelectedOutputUserNumber`): 2 is
switched on and stays empty, or is switched off and gets the text. -/
theorem wrong_switch :
    (let ops := [Op.loadString dGood, .setCurrent 2, .setSelString true, .setCurrent 1]
     let s := (session E (fresh E) ops).1
     (wish ops).2 2 = some true ∧ punched 2 s.punchOn (E.run s.eng s.sw tRun).1 = ['z', '\n'] ∧
     getSelString (step E (step E s (.runString tRun)).1 (.setCurrent 2)).1 = []) ∧
    (let ops := [Op.loadString dGood, .setSelString true, .setCurrent 2, .setSelString false,
       .setCurrent 1]
     let s := (session E (fresh E) ops).1
     (wish ops).2 2 = some false ∧
     getSelString (step E (step E s (.runString tRun)).1 (.setCurrent 2)).1 = ['z', '\n']) := by
  decide +kernel

/-- `defined`: behind an exception the list of input streams still holds the stream that was
read, which is destroyed by then; the next run reads it (`IPhreeqc.cpp:866-927`,
`PHRQ_io.cpp:705-727`). -/
theorem undefined_after_exception :
    (step E (session E (fresh E) [.loadString dGood, .runString tThrow]).1 (.runString tRun)).2 =
      .ub := by decide +kernel

end Verif.IPq.Violations
