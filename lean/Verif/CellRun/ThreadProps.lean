import Verif.CellRun.Threads
import Verif.CellRun.Demo

/-!
# A time step of the module: the division among workers, and what goes wrong
-/

namespace Verif.CellRun

variable {D : Type}

/-- **C168.** The result of a time step does not depend on how the cells are divided among
workers: if one worker that holds all cells ends normally, then so does every worker of any
division, each cell has the same content, and the tables of the workers, one after the
other, are the table of the single worker. -/
theorem threads_agree (E : Engine D) (mode : Int) (t0 t : ℚ) (active : Int → Bool)
    (ws : List (Worker D × List Int)) (w0 w0' : Worker D) (table : List (Option (Row D)))
    (h0 : w0.st.defined = false) (hd : ∀ p ∈ ws, p.1.st.defined = false)
    (hi : ∀ p ∈ ws, p.1.incr = w0.incr) (hn : (ws.flatMap (·.2)).Nodup)
    (hp : ∀ p ∈ ws, ∀ i ∈ p.2, 0 ≤ i ∧ w0.st.maps .mix i = none ∧
      cellAt p.1.st.maps i = cellAt w0.st.maps i ∧
      (active i = true → (w0.st.maps .solution i).isSome = true))
    (h : runThread E mode t0 t active (ws.flatMap (·.2)) w0 = .done w0' table) :
    ∃ ends : List (Worker D × List (Option (Row D))),
      List.Forall₂ (fun p e => runThread E mode t0 t active p.2 p.1 = .done e.1 e.2 ∧
        ∀ i ∈ p.2, cellAt e.1.st.maps i = cellAt w0'.st.maps i) ws ends ∧
      ends.flatMap (·.2) = table := by
  have hns : ∀ (m : Maps D) (i : Int), m .mix i = none → 0 ≤ i → (m .solution i).isSome = true →
      ¬ Skipped m i ∧ Clean E m i := by
    intro m i h1 h2 h3
    refine ⟨?_, fun d hh => by rw [h1] at hh; cases hh⟩
    rintro (hh | hh)
    · omega
    · rw [hh.1] at h3; cases h3
  obtain ⟨m', hw, hsm⟩ : ∃ m', Works E ⟨w0.incr, true, some t0, some t⟩ t0 (decide (3 ≤ mode))
      active (ws.flatMap (·.2)) w0.st.maps m' table ∧ Same w0'.st.maps m' := by
    rcases worker_treats_once_partial E mode t0 t active (ws.flatMap (·.2)) w0 h0 (by
        intro i hh ha
        obtain ⟨p, hp1, hp2⟩ := List.mem_flatMap.1 hh
        obtain ⟨g1, g2, _, g4⟩ := hp p hp1 i hp2
        exact hns _ i g2 g1 (g4 ha)) with ⟨w', m', tb, a1, a2, a3⟩ | ⟨w', _, _, _, _, _, _, a1, _⟩
    · rw [h] at a1; cases a1
      exact ⟨m', a2, a3⟩
    · rw [h] at a1; cases a1
  have hfin : ∀ i, 0 ≤ i → cellAt w0'.st.maps i = cellAt m' i :=
    fun i hh => funext fun k => hsm k i (by omega) (by omega)
  have key : ∀ (ws : List (Worker D × List Int)) (m m' : Maps D) (table : List (Option (Row D))),
      (∀ p ∈ ws, p.1.st.defined = false) → (∀ p ∈ ws, p.1.incr = w0.incr) →
      (ws.flatMap (·.2)).Nodup →
      (∀ p ∈ ws, ∀ i ∈ p.2, 0 ≤ i ∧ m .mix i = none ∧ cellAt p.1.st.maps i = cellAt m i ∧
        (active i = true → (m .solution i).isSome = true)) →
      Works E ⟨w0.incr, true, some t0, some t⟩ t0 (decide (3 ≤ mode)) active
        (ws.flatMap (·.2)) m m' table →
      ∃ ends : List (Worker D × List (Option (Row D))),
        List.Forall₂ (fun p e => runThread E mode t0 t active p.2 p.1 = .done e.1 e.2 ∧
          ∀ i ∈ p.2, 0 ≤ i ∧ cellAt e.1.st.maps i = cellAt m' i) ws ends ∧
        ends.flatMap (·.2) = table := by
    intro ws
    induction ws with
    | nil =>
      intro m m' table _ _ _ _ hw
      cases hw
      exact ⟨[], .nil, rfl⟩
    | cons p ws ih =>
      intro m m' table hd hi hn hp hw
      rw [List.flatMap_cons] at hw hn
      obtain ⟨mm, r1, r2, rfl, g1, g2⟩ := works_split hw
      have hdis := (List.nodup_append.1 hn).2.2
      obtain ⟨m2', k1, k2⟩ := works_congr (m2 := p.1.st.maps) g1 (List.nodup_append.1 hn).1
        (fun i hh => (hp p (by simp) i hh).2.2.1) (fun i hh => (hp p (by simp) i hh).2.1)
      have hfr : ∀ q ∈ ws, ∀ i ∈ q.2, ∀ k, mm k i = m k i := by
        intro q hq i hh k
        exact works_frame g1 k i (fun h1 => hdis i h1 i (List.mem_flatMap.2 ⟨q, hq, hh⟩) rfl)
      obtain ⟨ends, e1, e2⟩ := ih mm m' r2 (fun q hq => hd q (by simp [hq]))
        (fun q hq => hi q (by simp [hq])) (List.nodup_append.1 hn).2.1
        (by
          intro q hq i hh
          obtain ⟨x1, x2, x3, x4⟩ := hp q (by simp [hq]) i hh
          refine ⟨x1, by rw [hfr q hq i hh]; exact x2, ?_, by rw [hfr q hq i hh]; exact x4⟩
          rw [x3]
          funext k
          exact (hfr q hq i hh k).symm) g2
      have hkind : ∀ i ∈ p.2, ∀ k, p.1.st.maps k i = m k i :=
        fun i hh k => congrFun (hp p (by simp) i hh).2.2.1 k
      rcases worker_treats_once_partial E mode t0 t active p.2 p.1 (hd p (by simp)) (by
          intro i hh ha
          obtain ⟨x1, x2, x3, x4⟩ := hp p (by simp) i hh
          refine hns _ i ?_ x1 ?_
          · rw [hkind i hh]; exact x2
          · rw [hkind i hh]; exact x4 ha) with
        ⟨w', mw, tb, a1, a2, a3⟩ | ⟨w', b, i, rest, mw, rows, rf, a1, a0, a2, a3, a4, a5, _⟩
      · rw [hi p (by simp)] at a2
        obtain ⟨rfl, rfl⟩ := works_unique k1 a2
        refine ⟨(w', r1) :: ends, .cons ⟨a1, ?_⟩ e1, by rw [List.flatMap_cons, e2]⟩
        intro i hh
        have hnn := (hp p (by simp) i hh).1
        have h1 : cellAt w'.st.maps i = cellAt m2' i :=
          funext fun k => a3 k i (by omega) (by omega)
        refine ⟨hnn, ?_⟩
        rw [h1, k2 i hh]
        funext k
        refine (works_frame g2 k i ?_).symm
        exact fun h2 => hdis i hh i h2 rfl
      · exfalso
        rw [hi p (by simp)] at a3 a5
        rw [decide_eq_false (by omega), a2] at k1
        exact works_not_fails k1 a3 a4 a5
  obtain ⟨ends, e1, e2⟩ := key ws w0.st.maps m' table hd hi hn hp hw
  refine ⟨ends, e1.imp ?_, e2⟩
  intro p e hh
  exact ⟨hh.1, fun i hi' => (hh.2 i hi').2.trans (hfin i (hh.2 i hi').1).symm⟩

/-- A worker with the toy chemistry. -/
def toyWorker : Worker Int where
  st := { toySt true with defined := false }
  info := ⟨none, none, []⟩
  incr := false
  oneStep := false

/-- The entities and rows after a time step. -/
def lookEnd (ks : List (Kind × Int)) : End Int → Option (Bool × List (Option Int) × List (Option Int))
  | .done w tb => some (true, ks.map fun p => w.st.maps p.1 p.2, tb.map fun r => r.map (·.out.sol))
  | .thrown w => some (false, ks.map fun p => w.st.maps p.1 p.2, [])
  | .ub => none

/-- Beside `worker_treats_once_partial`, `nothing_left_over` and `threads_agree`: the cells 1,
4, 5 and the dry cell 6; and cell 3, which fails, under the modes 0 and 3. -/
example : lookEnd [(.solution, 1), (.solution, 4), (.kinetics, 4), (.solution, 5)]
      (runThread toy 0 20 10 (· != 6) [1, 4, 5, 6] toyWorker) =
    some (true, [some 8, some 9, some 19, some 6], [some 8, some 9, some 6, none]) ∧
  lookEnd [(.solution, 1), (.solution, 3), (.solution, 4)]
      (runThread toy 0 20 10 (· != 6) [1, 3, 4] toyWorker) =
    some (false, [some 8, some 49, some 8], []) ∧
  lookEnd [(.solution, 1), (.solution, 3), (.solution, 4)]
      (runThread toy 3 20 10 (· != 6) [1, 3, 4] toyWorker) =
    some (true, [some 8, some 49, some 9], [some 8, none, some 9]) :=
  ⟨by decide +kernel, by decide +kernel, by decide +kernel⟩

/-- Beside `threads_agree`: two workers. -/
example : lookEnd [(.solution, 1)] (runThread toy 0 20 10 (· != 6) [1] toyWorker) =
    some (true, [some 8], [some 8]) ∧
  lookEnd [(.solution, 4)] (runThread toy 0 20 10 (· != 6) [4, 5, 6] toyWorker) =
    some (true, [some 9], [some 9, some 6, none]) := by decide +kernel

/-- The caller replaces the solution of cell 3 and makes the next time step. -/
def nextStep (mode : Int) (d : Int) : End Int → End Int
  | .done w _ | .thrown w =>
    runThread toy mode 30 10 (· != 6) [1, 3] { w with st := { w.st with maps := put w.st.maps .solution 3 d } }
  | .ub => .ub

/-- **C167 in full is false.** Cell 3 fails in one time step; the caller gives it another
solution and makes the next time step, in which the chemistry of cell 3 succeeds.  The cell
is reacted twice in that step, once over the time of the step before: its water gains 9
twice.  A worker with the same entities and nothing left over gives 19.  It happens both
under mode 3, where the first time step counts as successful, and under mode 0. -/
theorem failed_cell_reacts_twice_violation :
    lookEnd [(.solution, 3)] (nextStep 3 10 (runThread toy 3 20 10 (· != 6) [1, 3] toyWorker)) =
      some (true, [some 28], [some 11, some 28]) ∧
    lookEnd [(.solution, 3)] (nextStep 0 10 (runThread toy 0 20 10 (· != 6) [1, 3] toyWorker)) =
      some (true, [some 28], [some 11, some 28]) ∧
    lookEnd [(.solution, 3)] (nextStep 3 10 (runThread toy 3 20 10 (· != 6) [1] toyWorker)) =
      some (true, [some 19], [some 11, some 19]) :=
  ⟨by decide +kernel, by decide +kernel, by decide +kernel⟩

/-- If cell 3 fails again, it fails twice in the next time step, first in the input without `RUN_CELLS`; that failure is
not noticed, and cell 1 is treated all the same. -/
theorem first_failure_unnoticed :
    lookEnd [(.solution, 1), (.solution, 3)] (nextStep 3 49 (runThread toy 3 20 10 (· != 6) [1, 3] toyWorker)) =
      some (true, [some 11, some 49], [some 11, none]) ∧
    lookEnd [(.solution, 1), (.solution, 3)] (nextStep 0 49 (runThread toy 0 20 10 (· != 6) [1, 3] toyWorker)) =
      some (false, [some 11, some 49], []) :=
  ⟨by decide +kernel, by decide +kernel⟩

end Verif.CellRun
