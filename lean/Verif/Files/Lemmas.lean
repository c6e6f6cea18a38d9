import Verif.Files.Spec

/-! # Lemmas about messages and files -/

namespace Verif.Files

/-- The part of the state that messages do not change. -/
def SameSet (s s' : St) : Prop :=
  s'.pfx = s.pfx ∧ s'.out = s.out ∧ s'.log = s.log ∧ s'.logOn = s.logOn ∧ s'.errorOn = s.errorOn
    ∧ s'.screenOn = s.screenOn

theorem SameSet.trans {a b c : St} (h : SameSet a b) (k : SameSet b c) : SameSet a c := by
  obtain ⟨h1, h2, h3, h4, h5, h6⟩ := h
  obtain ⟨k1, k2, k3, k4, k5, k6⟩ := k
  exact ⟨k1.trans h1, k2.trans h2, k3.trans h3, k4.trans h4, k5.trans h5, k6.trans h6⟩

theorem same_out (s : St) (t : String) : SameSet s (s.outputMsg t) := by
  unfold St.outputMsg; split <;> simp [SameSet]

theorem same_log (s : St) (t : String) : SameSet s (s.logMsg t) := by
  unfold St.logMsg; split
  · split <;> simp [SameSet]
  · simp [SameSet]

theorem same_screen (s : St) (t : String) : SameSet s (s.screenMsg t) := by
  unfold St.screenMsg; split <;> simp [SameSet]

theorem same_errorMsg (s : St) (t : String) : SameSet s (s.errorMsg t) := by
  unfold St.errorMsg; split
  · exact same_screen s t
  · simp [SameSet]

theorem same_error (s : St) (t : String) (p : Bool) : SameSet s (s.errorMessage t p) := by
  unfold St.errorMessage
  dsimp only
  refine SameSet.trans ?_ (same_errorMsg _ _)
  refine SameSet.trans ?_ (same_log _ _)
  refine SameSet.trans ?_ (same_out _ _)
  simp [SameSet]

theorem same_warning (s : St) (t : String) : SameSet s (s.warningMsg t) := by
  unfold St.warningMsg
  refine SameSet.trans ?_ (same_out _ _)
  refine SameSet.trans ?_ (same_log _ _)
  split
  · exact same_screen _ _
  · simp [SameSet]

theorem same_finish_invalid (s : St) (n : String) : SameSet s (s.finish .invalidArg n).1 := by
  unfold St.finish
  split
  · exact ((same_error _ _ _).trans (same_error _ _ _)).trans (same_error _ _ _)
  · simp [SameSet]

theorem same_finish_fail (s : St) (n : String) : SameSet s (s.finish .fail n).1 := by
  unfold St.finish
  split
  · exact ((same_error _ _ _).trans (same_error _ _ _)).trans (same_error _ _ _)
  · simp [SameSet]

/-- What is appended to file `k` by a piece written to the stream `f`. -/
def part (f : Option String) (k : String) (l : List String) : List String := if f = some k then l else []

theorem part_self (k : String) (l : List String) : part (some k) k l = l := by simp [part]

theorem fs_out (s : St) (t k : String) :
    (s.outputMsg t).fs k = (s.fs k).map (· ++ part s.out k [t]) := by
  unfold St.outputMsg part
  cases h : s.out with
  | none => simp
  | some n =>
    by_cases e : k = n
    · subst e; simp [append]
    · have e' : ¬ n = k := fun x => e x.symm
      simp [append, e, e']

theorem fs_log (s : St) (t k : String) (h : s.logOn = true) :
    (s.logMsg t).fs k = (s.fs k).map (· ++ part s.log k [t]) := by
  unfold St.logMsg part
  cases hl : s.log with
  | none => simp
  | some n =>
    by_cases e : k = n
    · subst e; simp [append, h]
    · have e' : ¬ n = k := fun x => e x.symm
      simp [append, e, e', h]

theorem fs_screen (s : St) (t : String) : (s.screenMsg t).fs = s.fs := by
  unfold St.screenMsg; split <;> rfl

theorem fs_errorMsg (s : St) (t : String) : (s.errorMsg t).fs = s.fs := by
  unfold St.errorMsg; split
  · exact fs_screen s t
  · rfl

/-- The files differ, and the log is switched on when its file is open. -/
def Good (s : St) : Prop :=
  (∀ n, s.log = some n → s.out ≠ some n) ∧ (s.log ≠ none → s.logOn = true)

/-- The text meant for file `k`. -/
def share (s : St) (k : String) (a b : List String) : List String :=
  if s.log = some k then a else if s.out = some k then b else []

/-- From `s` to `s'` the log received `a`, the output file `b`, and no setting changed. -/
def Wrote (s s' : St) (a b : List String) : Prop :=
  SameSet s s' ∧ ∀ k, s'.fs k = (s.fs k).map (· ++ share s k a b)

theorem Good.same {s s' : St} (h : Good s) (k : SameSet s s') : Good s' := by
  obtain ⟨_, k2, k3, k4, _, _⟩ := k
  unfold Good
  rw [k2, k3, k4]
  exact h

theorem Wrote.trans {s u v : St} {a b c d : List String} (h : Wrote s u a b) (k : Wrote u v c d) :
    Wrote s v (a ++ c) (b ++ d) := by
  refine ⟨h.1.trans k.1, fun n => ?_⟩
  have e : share u n c d = share s n c d := by
    unfold share; rw [h.1.2.1, h.1.2.2.1]
  rw [k.2 n, h.2 n, e, Option.map_map]
  congr 1
  funext x
  simp only [Function.comp, share]
  split
  · simp
  · split <;> simp

theorem Wrote.of_fs {s s' : St} (h : SameSet s s') (e : s'.fs = s.fs) : Wrote s s' [] [] := by
  refine ⟨h, fun k => ?_⟩
  rw [e]; simp [share]

theorem wrote_out {s : St} (g : Good s) (t : String) : Wrote s (s.outputMsg t) [] [t] := by
  refine ⟨same_out s t, fun k => ?_⟩
  rw [fs_out]
  unfold part share
  by_cases h : s.log = some k
  · simp [h, g.1 k h]
  · simp [h]

theorem wrote_log {s : St} (g : Good s) (t : String) : Wrote s (s.logMsg t) [t] [] := by
  refine ⟨same_log s t, fun k => ?_⟩
  by_cases h : s.log = none
  · have : s.logMsg t = s := by unfold St.logMsg; rw [h]
    rw [this]; simp [share, h]
  · rw [fs_log s t k (g.2 h)]
    unfold part share
    by_cases e : s.log = some k <;> simp [e]

theorem wrote_screen (s : St) (t : String) : Wrote s (s.screenMsg t) [] [] :=
  .of_fs (same_screen s t) (fs_screen s t)

theorem wrote_errorMsg (s : St) (t : String) : Wrote s (s.errorMsg t) [] [] :=
  .of_fs (same_errorMsg s t) (fs_errorMsg s t)

theorem wrote_error {s : St} (g : Good s) (t : String) (p : Bool) :
    Wrote s (s.errorMessage t p) [errorLine t p] [errorLine t p] := by
  unfold St.errorMessage
  dsimp only
  change Wrote s ((((({ s with err := s.err ++ [errorLine t p] } : St).outputMsg (errorLine t p)).logMsg
    (errorLine t p)).errorMsg (errorLine t p))) _ _
  generalize errorLine t p = e
  have h0 : Wrote s ({ s with err := s.err ++ [e] } : St) [] [] := .of_fs (by simp [SameSet]) rfl
  have g0 := g.same h0.1
  have h1 := wrote_out g0 e
  have g1 := g0.same h1.1
  have h2 := wrote_log g1 e
  simpa using ((h0.trans h1).trans h2).trans (wrote_errorMsg _ e)

theorem wrote_warning {s : St} (g : Good s) (t : String) :
    Wrote s (s.warningMsg t) [t ++ "\n"] [t ++ "\n"] := by
  unfold St.warningMsg
  generalize t ++ "\n" = e
  have h0 : Wrote s (if s.errorOn then s.screenMsg e else s) [] [] := by
    split
    · exact wrote_screen s e
    · exact .of_fs (by simp [SameSet]) rfl
  have g0 := g.same h0.1
  have h1 := wrote_log g0 e
  have h2 := wrote_out (g0.same h1.1) e
  simpa using (h0.trans h1).trans h2

theorem wrote_refusal {s : St} (g : Good s) :
    Wrote s (s.finish .invalidArg "PhreeqcRM::SetFilePrefix").1 refusal refusal := by
  unfold St.finish
  rw [if_pos (by decide)]
  dsimp only [St.decode]
  have h1 := wrote_error g "Invalid argument." true
  have g1 := g.same h1.1
  have h2 := wrote_error g1 "PhreeqcRM::SetFilePrefix" true
  have h3 := wrote_error (g1.same h2.1) "\n" false
  exact (h1.trans h2).trans h3

theorem log_ne_chem (p : String) : p ++ ".log.txt" ≠ p ++ ".chem.txt" := by
  intro h
  have := congrArg String.length h
  simp only [String.length_append] at this
  have a : ".log.txt".length = 8 := by decide
  have b : ".chem.txt".length = 9 := by decide
  omega

end Verif.Files
