import Verif.IPq.Props

/-!
# A small engine, and cases that meet the hypotheses of `Props`
-/

namespace Verif.IPq.Demo

open Verif.IPq Verif.IPq.Spec

/-- Inputs and databases that tell the engine what to do. -/
abbrev tStop : Text := ['s', '\n']
/-- left by an exception -/
abbrev tThrow : Text := ['t', '\n']
/-- the test of a database -/
abbrev tTest : Text := ['d']
/-- anything else -/
abbrev tRun : Text := ['a', '\n']
/-- an input with an error that does not stop it -/
abbrev tBad : Text := ['b', '\n']
/-- a database -/
abbrev dGood : Text := ['g']
/-- a database that cannot be used although it can be read -/
abbrev dOdd : Text := ['o']
/-- a database with an error -/
abbrev dBad : Text := ['b']
/-- a database left by an exception -/
abbrev dThrow : Text := ['t']

/-- An engine that knows its components, and does what its input says. -/
def E : Engine (List Text) where
  init := []
  readDb x _ t :=
    if t = dBad then ([.err ['x']], .fin, x)
    else if t = dThrow then ([], .thrown none, x)
    else if t = dOdd then ([], .fin, [['O', 'd']])
    else ([.warn ['o', 'l', 'd']], .fin, [['H']])
  run x _ t :=
    if t = tTest then (if [['O', 'd']] = x then ([.out ['u', '\n']], .stop ['n', 'o'], x) else ([], .fin, x))
    else if t = tStop then
      ([.reading, .defs [1, 2], .out ['u', '\n'], .logOn true, .log ['l', '\n'], .punch 1 ['p', '\n']],
        .stop ['n', 'o'], ['C', 'l'] :: x)
    else if t = tThrow then ([.out ['u', '\n']], .thrown none, x)
    else if t = tBad then ([.reading, .err ['x'], .inputError, .out ['u']], .fin, x)
    else ([.reading, .defs [1, 2], .logOn true, .out (['r', '\n'] ++ t), .log ['l', '\n'],
      .warn ['w'], .punch 1 ['p', '\n', 'q'], .punch 2 ['z', '\n'], .dump false ['d', '\n'],
      .dump true ['e', '\n']], .fin, ['N', 'a'] :: x)
  components x := x
  selNums _ := [1, 2]
  testInput _ := tTest
  setReading x _ := x

/-- The engine writes only selected outputs that it has. -/
theorem tidy : Tidy E := by
  intro x sw t
  refine ⟨?_, (by decide : ([1, 2] : List Int).Nodup)⟩
  intro n u h
  simp only [E] at h ⊢
  split_ifs at h <;> simp at h <;> simp [h] <;> tauto

/-- A session with a database, lines, all switches, and a run. -/
def ops : List Op :=
  [.loadString dGood, .setSwitch .outStr true, .setSwitch .logStr true, .setSwitch .dumpStr true,
   .setSelString true, .accumulate ['k'], .runAccumulated, .accumulate ['a']]

example : (session E (fresh E) ops).2.map Prod.snd =
    [.ret 0, .ret 0, .ret 0, .ret 0, .ret 0, .ret 0, .ret 0, .ret 0] := by decide +kernel

/-- `accumulated_partial`, `accumulated_run_partial`, `reports_partial`, `dump_text`: the
hypotheses hold behind this session. -/
example : RunsCame (session E (fresh E) ops).2 ∧ NoThrow (session E (fresh E) ops).2 ∧
    lastOf loads (session E (fresh E) ops).2 = some (.loadString dGood, .ret 0) ∧
    (session E (fresh E) ops).1.acc = ['a', '\n'] ∧
    (session E (fresh E) ops).1.sw.dumpStr = true ∧
    (E.run (session E (fresh E) ops).1.eng (session E (fresh E) ops).1.sw ['a', '\n']).2.1 = .fin := by
  refine ⟨?_, ?_, by decide +kernel, by decide +kernel, by decide +kernel, by decide +kernel⟩
  · intro p hp ho
    have : p.2 = .ret 0 := by
      have h : ∀ p ∈ (session E (fresh E) ops).2, p.2 = .ret 0 := by decide +kernel
      exact h p hp
    exact ⟨0, this⟩
  · have h : ∀ p ∈ (session E (fresh E) ops).2, p.2 ≠ .thrown := by decide +kernel
    exact h

/-- `accumulated_partial`: the first line was run, the second one is pending. -/
example : pending (ops.map past) = [['a']] := by
  have : ops.map past = ([.drop, .other, .other, .other, .other, .line ['k']] ++ [.ran]) ++
      [.line ['a']] := rfl
  rw [this, pending_line, staying_ran]
  rfl

/-- `lines_partial`: the last run returned 0, and there are lines to show. -/
example : LastZero (session E (fresh E) ops).2 ∧
    (session E (fresh E) ops).1.outLines.length = 3 ∧
    lineAt (session E (fresh E) ops).1.outLines 1 = ['k'] ∧
    selLineCount (session E (fresh E) ops).1 = 2 ∧
    selLineAt (session E (fresh E) ops).1 1 = ['q'] ∧
    (wish ops).2 (wish ops).1 = some true := by
  refine ⟨?_, by decide +kernel, by decide +kernel, by decide +kernel, by decide +kernel,
    by decide +kernel⟩
  intro p hp
  have : lastOf (fun o => runs o || loads o) (session E (fresh E) ops).2 =
      some (.runAccumulated, .ret 0) := by decide +kernel
  rw [this] at hp
  rw [← Option.some.inj hp]

/-- `messages_lines_partial`: a stopped run comes back with one line of errors. -/
example : (step E (session E (fresh E) ops).1 (.runString tStop)).2 = .ret 1 ∧
    (step E (session E (fresh E) ops).1 (.runString tStop)).1.errLines.length = 1 ∧
    lineAt (step E (session E (fresh E) ops).1 (.runString tStop)).1.errLines 0 =
      ['E', 'R', 'R', 'O', 'R', ':', ' ', 'n', 'o'] := by decide +kernel

/-- `reports_partial`, `dump_text`: what such a run reports. -/
example : getDumpString (step E (session E (fresh E) ops).1 .runAccumulated).1 =
      ['d', '\n', 'e', '\n'] ∧
    getWarningString (step E (session E (fresh E) ops).1 .runAccumulated).1 =
      ['W', 'A', 'R', 'N', 'I', 'N', 'G', ':', ' ', 'w', '\n'] := by decide +kernel

/-- `database_partial`: a file that cannot be opened. -/
example : NeverRead (session E (fresh E) [.loadString dGood, .loadDatabase ['f'] none]).2 ∧
    (step E (session E (fresh E) [.loadString dGood, .loadDatabase ['f'] none]).1
      (.runString tRun)).2 = .ret 1 := by
  refine ⟨?_, by decide +kernel⟩
  intro p hp
  have : lastOf loads (session E (fresh E) [.loadString dGood, .loadDatabase ['f'] none]).2 =
      some (.loadDatabase ['f'] none, .ret 1) := by decide +kernel
  rw [this] at hp
  exact ⟨['f'], by rw [← Option.some.inj hp]⟩

/-- `components_partial`: behind the run there is a new component. -/
example : (step E (session E (fresh E) (ops ++ [.components, .runString tRun])).1 .components).1.comps =
    [['N', 'a'], ['N', 'a'], ['H']] := by decide +kernel

/-- `switches_partial`: a load in between. -/
example : LoadsCame (session E (fresh E) [.setSwitch .errFile true, .loadString dGood]).2 ∧
    lastSet .errFile [.setSwitch .errFile true, .loadString dGood] = some true := by
  refine ⟨?_, by decide⟩
  intro p hp _
  have h : ∀ p ∈ (session E (fresh E) [.setSwitch .errFile true, .loadString dGood]).2,
      p.2 = .ret 0 := by decide +kernel
  exact ⟨0, h p hp⟩

/-- `selected_strings_partial`: two numbers switched on alike. -/
example : (wish (ops ++ [.setCurrent 2, .setSelString true])).2 1 = some true ∧
    (wish (ops ++ [.setCurrent 2, .setSelString true])).2
      (wish (ops ++ [.setCurrent 2, .setSelString true])).1 = some true ∧
    getSelString (step E (step E (session E (fresh E) (ops ++ [.setCurrent 2, .setSelString true])).1
      (.runString tRun)).1 (.setCurrent 1)).1 = ['p', '\n', 'q'] := by decide +kernel

/-- `defined_partial`: a session with a failed run, without an exception. -/
example : NoThrow (session E (fresh E) [.loadString dGood, .runString tStop]).2 := by
  have h : ∀ p ∈ (session E (fresh E) [.loadString dGood, .runString tStop]).2,
      p.2 ≠ .thrown := by decide +kernel
  exact h

end Verif.IPq.Demo
