import Verif.Lockstep.Demo

/-!
# Properties of the processes of the MPI build
-/

namespace Verif.Lockstep

open Spec

variable {n : Nat} {χ : Type} {E : Engine χ}

/-- **C133.** A program of calls of the API on the root ends in every execution of the MPI build: all
processes stay in step, whatever the order of their steps and the buffering of messages, every call
returns or throws, and the data of the processes agree at the end. Every execution ends with the same
results.

Full claim: for all calls of the API and all arguments. Missing: the calls not modelled; vectors that
are too short (`mask_short_hangs`), `SetErrorHandlerMode(2)`, a failing transfer of cells and a
communicator other than `MPI_COMM_WORLD` (`Works`). -/
theorem sessions_end_partial (hw : Works n E) (hn : 0 < n) (cs : List Call) (s : Nat → St χ)
    (h : Ready n s) (hc : ∀ c ∈ cs, Fine (s 0).sh.nxyz (s 0).sh.ncomp c) :
    ∃ rs u, Ends E n cs s rs u ∧ rs.length = cs.length ∧ (∀ r ∈ rs, r ≠ .ub ∧ r ≠ .exited) ∧
      Ready n u := by
  obtain ⟨rs, u, w, h1, h2⟩ := session_run hw hn cs s h hc
  exact ⟨rs, u, ends_of_run hn h2, h1.length, fun r hr => ⟨(h1.alive r hr).2, (h1.alive r hr).1⟩, h1.ready⟩

/-- What every end of the program of calls shows, from what one end shows. -/
theorem Spec.Ends.unique {cs : List Call} {s u : Nat → St χ} {rs : List (Res IRM)}
    (h : Ends E n cs s rs u) {m : Nat} {D : Config (PState χ (List (Res IRM) × St χ))}
    (he : Exec (pact E n) n m (start E n cs s) D) (hd : Halted E n D) : Shows n rs u D := by
  obtain ⟨b, hb⟩ := h
  rcases (hb m D he).2 with h | ⟨a, D', h⟩
  · exact h
  · exact absurd h (hd a D')

/-- Data of a process that has ended. -/
def Spec.Left (D : Config (PState χ (List (Res IRM) × St χ))) (p : Nat) (x : St χ) : Prop :=
  (∃ rs, D.ps p = .root (.ret (rs, x))) ∨ D.ps p = .ended x

theorem Spec.Shows.left {D : Config (PState χ (List (Res IRM) × St χ))} {rs : List (Res IRM)}
    {u : Nat → St χ} (h : Shows n rs u D) {p : Nat} (hp : p < n) : Left D p (u p) := by
  by_cases h0 : p = 0
  · subst h0; exact Or.inl ⟨rs, h.1⟩
  · exact Or.inr (h.2.1 p (Nat.pos_of_ne_zero h0) hp)

/-- **C134.** When no process can go on, the settings of every process are those that a user expects
from the calls, as if there were only one process.

Missing, as for `sessions_end_partial`. -/
theorem settings_everywhere_partial (hw : Works n E) (cs : List Call) (s : Nat → St χ)
    (h : Ready n s) (hc : ∀ c ∈ cs, Fine (s 0).sh.nxyz (s 0).sh.ncomp c) {m : Nat}
    {D : Config (PState χ (List (Res IRM) × St χ))} (he : Exec (pact E n) n m (start E n cs s) D)
    (hd : Halted E n D) {p : Nat} (hp : p < n) :
    ∃ x, Left D p x ∧ x.sh.set = settings cs (s 0).sh.set := by
  have hn : 0 < n := by omega
  obtain ⟨rs, u, w, h1, h2⟩ := session_run hw hn cs s h hc
  refine ⟨u p, ((ends_of_run hn h2).unique he hd).left hp, ?_⟩
  rw [h1.ready.agree p hp, h1.set]

/-- **C135.** When no process can go on, every process has, for its own cells, the values of density,
porosity, representative volume and saturation that the user last set, although cells move between
processes.

Missing, besides what is missing in `sessions_end_partial`: `StateApply` (`apply_loses_cells`),
pressure and temperature. -/
theorem cells_have_values_partial (hw : Works n E) (cs : List Call) (s : Nat → St χ)
    (h : Ready n s) (hp0 : Pieces n s) (hc : ∀ c ∈ cs, Fine (s 0).sh.nxyz (s 0).sh.ncomp c)
    (hs : ∀ c ∈ cs, ∀ i, c ≠ .stateApply i) {m : Nat}
    {D : Config (PState χ (List (Res IRM) × St χ))} (he : Exec (pact E n) n m (start E n cs s) D)
    (hd : Halted E n D) {p : Nat} (hp : p < n) (a : Arr) (ha : Kept a) :
    ∃ x cells, Left D p x ∧ x.sh.cells = cells ∧ Divides n (s 0).sh.back.length cells ∧
      PieceOf (s 0).sh.back cells p (array (s 0).sh.nxyz a cs ((s 0).rootArr a)) (x.workArr a) := by
  have hn : 0 < n := by omega
  obtain ⟨rs, u, w, h1, h2⟩ := session_run hw hn cs s h hc
  refine ⟨u p, (u 0).sh.cells, ((ends_of_run hn h2).unique he hd).left hp, ?_, ?_, ?_⟩
  · rw [h1.ready.agree p hp]
  · rw [← h1.back]; exact h1.ready.divides
  · have := (h1.pieces hs hp0 p hp).1 a ha
    rw [h1.back, h1.arrays a ha] at this
    exact this

/-- A call after other calls. -/
theorem one_more (hw : Works n E) (hn : 0 < n) (cs : List Call) (s : Nat → St χ)
    (h : Ready n s) (hc : ∀ c ∈ cs, Fine (s 0).sh.nxyz (s 0).sh.ncomp c) (c : Call)
    {V : (Nat → St χ) → Res IRM → Prop}
    (hv : ∀ u, Ready n u → ∀ r0 : Nat → Res IRM, (∀ p < n, (r0 p).Alive) →
      ∃ (r : Nat → Res IRM) (u' : Nat → St χ),
        Served E n (perform E n c (u 0)) (fun p => (r0 p, u p)) (r 0, u' 0) (fun p => (r p, u' p)) ∧
        (∀ p < n, (r p).Alive) ∧ V u (r 0)) :
    ∃ rs u r u', Ends E n cs s rs u ∧ Ends E n (cs ++ [c]) s (rs ++ [r]) u' ∧ V u r := by
  obtain ⟨rs, u, r', h1, ha, h2⟩ := calls_served hw hn cs s h hc (fun _ => .ok .ok) (fun _ _ => alive_ok _)
  obtain ⟨r, u', h3, h4, h5⟩ := hv u h1.ready r' ha
  obtain ⟨w1, e1⟩ := (h2 _ _ _ (SessRun.nil u ha)).start hn
  obtain ⟨w2, e2⟩ := (h2 [c] _ _ (SessRun.cons (h4 0 hn) h3 (SessRun.nil u' h4))).start hn
  rw [List.append_nil, List.append_nil] at e1
  exact ⟨rs, u, r 0, u', ends_of_run hn e1, ends_of_run hn e2, h5⟩

/-- **C136, loading.** After any calls, `LoadDatabase` returns `IRM_OK` just if the name is not empty
and the worker instance of every process could read the database.

Full claim: the instances InitialPhreeqc and Utility too. It does not hold, `initial_failure_unseen`. -/
theorem load_reports_partial (hw : Works n E) (hn : 0 < n) (cs : List Call) (s : Nat → St χ)
    (h : Ready n s) (hc : ∀ c ∈ cs, Fine (s 0).sh.nxyz (s 0).sh.ncomp c) (t : List Char) :
    ∃ rs u r u', Ends E n cs s rs u ∧ Ends E n (cs ++ [.loadDatabase t]) s (rs ++ [r]) u' ∧
      (r = .ok .ok ↔ t ≠ [] ∧ ∀ p < n, (E.load t (u p).chem).2.1 = 0) := by
  refine one_more hw hn cs s h hc _ (V := fun u r => r = .ok .ok ↔ t ≠ [] ∧ ∀ p < n, (E.load t (u p).chem).2.1 = 0) ?_
  intro u hu r0 ha
  obtain ⟨r, u', h1, h2, _, h3⟩ := verdict_load (E := E) hu hn t r0 ha
  exact ⟨r, u', h1, h2, by rw [h3]; simp⟩

/-- **C136, files.** After any calls, `RunFile` with a name returns `IRM_OK` just if the worker
instance of every process, if workers were asked for, could run the file.

Full claim: the instances InitialPhreeqc and Utility too. It does not hold, `initial_failure_unseen`. -/
theorem runFile_reports_partial (hw : Works n E) (hn : 0 < n) (cs : List Call) (s : Nat → St χ)
    (h : Ready n s) (hc : ∀ c ∈ cs, Fine (s 0).sh.nxyz (s 0).sh.ncomp c) (w i u : Bool) (t : List Char)
    (ht : t ≠ []) :
    ∃ rs v r v', Ends E n cs s rs v ∧ Ends E n (cs ++ [.runFile w i u t]) s (rs ++ [r]) v' ∧
      (r = .ok .ok ↔ (w = true → ∀ p < n, (E.runFile 0 t (v p).chem).2 = 0)) := by
  refine one_more hw hn cs s h hc _
    (V := fun v r => r = .ok .ok ↔ (w = true → ∀ p < n, (E.runFile 0 t (v p).chem).2 = 0)) ?_
  intro v hv r0 ha
  obtain ⟨r, u', h1, h2, _, h3⟩ := verdict_runFile (E := E) hv hn w i u t ht r0 ha
  exact ⟨r, u', h1, h2, by rw [h3]; simp⟩

/-- **C136, input.** After any calls, `RunString` returns `IRM_OK` just if the worker instance of every
process, if workers were asked for, could run the input.

Full claim: the instances InitialPhreeqc and Utility too. It does not hold, `initial_failure_unseen`. -/
theorem runString_reports_partial (hw : Works n E) (hn : 0 < n) (cs : List Call) (s : Nat → St χ)
    (h : Ready n s) (hc : ∀ c ∈ cs, Fine (s 0).sh.nxyz (s 0).sh.ncomp c) (w i u : Bool) (t : List Char) :
    ∃ rs v r v', Ends E n cs s rs v ∧ Ends E n (cs ++ [.runString w i u t]) s (rs ++ [r]) v' ∧
      (r = .ok .ok ↔ (w = true → ∀ p < n, (E.runString 0 t (v p).chem).2 = 0)) := by
  refine one_more hw hn cs s h hc _
    (V := fun v r => r = .ok .ok ↔ (w = true → ∀ p < n, (E.runString 0 t (v p).chem).2 = 0)) ?_
  intro v hv r0 ha
  obtain ⟨r, u', h1, h2, _, h3⟩ := verdict_runString (E := E) hv hn w i u t r0 ha
  exact ⟨r, u', h1, h2, by rw [h3]; simp⟩

/-- **C136, running.** After any calls, `RunCells` does not return `IRM_OK` if, in the process of any
rank, a cell has no solution (when the cells are to be checked) or the calculation of the cells fails
(when they are not).

Missing: that it returns `IRM_OK` otherwise; failures after a successful check. -/
theorem runCells_reports_partial (hw : Works n E) (hn : 0 < n) (cs : List Call) (s : Nat → St χ)
    (h : Ready n s) (hc : ∀ c ∈ cs, Fine (s 0).sh.nxyz (s 0).sh.ncomp c) :
    ∃ rs u r u', Ends E n cs s rs u ∧ Ends E n (cs ++ [.runCells]) s (rs ++ [r]) u' ∧
      ((u 0).sh.check = true → (∃ p < n, E.defined (u p).chem ((u p).sh.cells.take p).sum
        (((u p).sh.cells.take p).sum + (u p).sh.cells.getD p 0) = false) → r ≠ .ok .ok) ∧
      ((u 0).sh.check = false → (∃ p < n, (E.runCells p { u p with errs := [] }).2.1 ≠ 0) → r ≠ .ok .ok) := by
  refine one_more hw hn cs s h hc _ (V := fun u r =>
      ((u 0).sh.check = true → (∃ p < n, E.defined (u p).chem ((u p).sh.cells.take p).sum
        (((u p).sh.cells.take p).sum + (u p).sh.cells.getD p 0) = false) → r ≠ .ok .ok) ∧
      ((u 0).sh.check = false → (∃ p < n, (E.runCells p { u p with errs := [] }).2.1 ≠ 0) → r ≠ .ok .ok)) ?_
  intro u hu r0 ha
  obtain ⟨r, u', h1, h2, _, _, h3, h4⟩ := verdict_runCells hw hu hn r0 ha
  refine ⟨r, u', h1, h2, ?_, h3⟩
  intro hck hex
  obtain ⟨p, hp, hx⟩ := hex
  refine h4 hck ⟨p, hp, ?_⟩
  intro hdef
  have : E.defined (u p).chem ((u p).sh.cells.take p).sum
        (((u p).sh.cells.take p).sum + (u p).sh.cells.getD p 0) = true := hdef
  rw [hx] at this
  cases this

/-! ## Cases -/

/-- The hypotheses are met by two processes that run the program of calls of `Demo`, with rebalancing;
the calls do take place. -/
example : ∃ rs u, Ends Demo.E 2 Demo.calls Demo.s0 rs u ∧ rs.length = 16 ∧ Ready 2 u := by
  obtain ⟨rs, u, h1, h2, _, h3⟩ := sessions_end_partial Demo.works (by decide) Demo.calls Demo.s0 Demo.ready Demo.fine
  exact ⟨rs, u, h1, h2, h3⟩

/-- The settings expected from these calls. -/
example : ((settings Demo.calls (Demo.s0 0).sh.set).nums .time,
    (settings Demo.calls (Demo.s0 0).sh.set).units .solution,
    (settings Demo.calls (Demo.s0 0).sh.set).printOn) = (10, 2, true, false, false) := by
  decide +kernel

/-- The porosities expected from these calls. -/
example : array 3 .porosity Demo.calls ((Demo.s0 0).rootArr .porosity) = [4, 5, 6] := by
  decide +kernel

example : ∀ c ∈ Demo.calls, ∀ i, c ≠ .stateApply i := by
  intro c hc
  simp only [Demo.calls, List.mem_cons, List.not_mem_nil, or_false] at hc
  rcases hc with rfl | rfl | rfl | rfl | rfl | rfl | rfl | rfl | rfl | rfl | rfl | rfl | rfl | rfl | rfl | rfl <;> nofun

/-- Tests of a process that has ended. -/
def leftTest (f : St χ → Bool) : PState χ (List (Res IRM) × St χ) → Bool
  | .root (.ret (_, x)) => f x
  | .ended x => f x
  | _ => false

theorem leftTest_sound {f : St χ → Bool} {D : Config (PState χ (List (Res IRM) × St χ))} {p : Nat}
    (h : leftTest f (D.ps p) = true) : ∃ x, Left D p x ∧ f x = true := by
  unfold leftTest at h
  split at h
  · rename_i rs x hx; exact ⟨x, Or.inl ⟨_, hx⟩, h⟩
  · rename_i x hx; exact ⟨x, Or.inr hx, h⟩
  · cases h

/-- One execution: after 60 steps all calls are made, and the cell moved to the second process has its
porosity there. -/
example : ∃ D, Exec (pact Demo.E 2) 2 60 (start Demo.E 2 Demo.calls Demo.s0) D ∧
    ∃ x, Left D 1 x ∧ x.workArr .porosity = [5, 6] ∧ x.sh.cells = [1, 2] := by
  obtain ⟨D, h1, h2⟩ := after_sound (act := pact Demo.E 2) (n := 2) (k := 60)
    (C := start Demo.E 2 Demo.calls Demo.s0)
    (f := fun D => leftTest (fun x => x.workArr .porosity = [5, 6] ∧ x.sh.cells = [1, 2]) (D.ps 1))
    (by decide +kernel)
  obtain ⟨x, h3, h4⟩ := leftTest_sound h2
  exact ⟨D, h1, x, h3, of_decide_eq_true h4⟩

/-- The failure of the worker of the second process is reported. -/
example : (Demo.E.runString 0 ['y'] (Demo.s0 1).chem).2 ≠ 0 ∧ (Demo.E.runString 0 ['y'] (Demo.s0 0).chem).2 = 0 := by
  decide

end Verif.Lockstep
