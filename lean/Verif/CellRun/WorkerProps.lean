import Verif.CellRun.WorkerSpec

/-!
# Properties of a worker that runs its cells
-/

namespace Verif.CellRun

variable {D : Type}

/-- Without accepted failures every active cell has its row. -/
theorem works_fine {E : Engine D} {O : Opts} {t0 : ℚ} {active : Int → Bool} {cells : List Int}
    {m m' : Maps D} {rows : List (Option (Row D))}
    (h : Works E O t0 false active cells m m' rows) : LastFine active cells rows := by
  generalize hk : false = keep at h
  induction h with
  | nil m => intro b i rest tb r tr e; simp at e
  | dry i is m m' rows ha _ ih =>
    intro b j rest tb r tr e1 e2 e3 e4 e5
    cases b with
    | nil =>
      simp only [List.nil_append, List.cons.injEq] at e1
      rw [← e1.1, ha] at e4; cases e4
    | cons x b =>
      cases tb with
      | nil => simp at e3
      | cons y tb =>
        simp only [List.cons_append, List.cons.injEq] at e1 e2
        exact ih b j rest tb r tr e1.2 e2.2 (by simpa using e3) e4 e5
  | treated i is m m' c' x sp rows _ _ _ ih =>
    intro b j rest tb r tr e1 e2 e3 e4 e5
    cases b with
    | nil =>
      cases tb with
      | nil =>
        simp only [List.nil_append, List.cons.injEq] at e2
        rw [← e2.1]; simp
      | cons y tb => simp at e3
    | cons x b =>
      cases tb with
      | nil => simp at e3
      | cons y tb =>
        simp only [List.cons_append, List.cons.injEq] at e1 e2
        exact ih b j rest tb r tr e1.2 e2.2 (by simpa using e3) e4 e5
  | failed i is m m' r rows _ hk' => rw [← hk] at hk'; cases hk'

theorem runIdle_ready (E : Engine D) (w : Worker D) (h : w.st.defined = false) :
    runIdle E w = some ({ w with st := { w.st with rows := [] } }, true) := by
  unfold runIdle runAsCells
  rw [if_pos (.inr h)]

/-- One call for one cell. -/
theorem run_block (E : Engine D) (t0 t : ℚ) (i : Int) (w : Worker D) (m : Maps D)
    (ho : w.oneStep = true) (hs : Same w.st.maps m) (hn : ¬ Skipped m i) (hc : Clean E m i) :
    (∃ w' c' r sp, runBlock E ⟨some t0, some t, [i]⟩ w = some (w', true) ∧
      Treated E ⟨w.incr, true, some t0, some t⟩ (m .solution) t0 i (cellAt m i) c' [r] sp ∧
      Same w'.st.maps (withCell m i c') ∧ w'.st.rows = [r] ∧ w'.st.defined = false ∧
      w'.incr = w.incr ∧ w'.oneStep = true) ∨
    (∃ w' rows, runBlock E ⟨some t0, some t, [i]⟩ w = some (w', false) ∧
      Fails E ⟨w.incr, true, some t0, some t⟩ (m .solution) t0 i (cellAt m i) rows ∧
      Same w'.st.maps m ∧ w'.st.defined = true ∧ w'.incr = w.incr ∧ w'.oneStep = true) := by
  have hopt : ∀ x, Worker.opts (D := D) { w with info := ⟨some t0, some t, [i]⟩, st := x } =
      ⟨w.incr, true, some t0, some t⟩ := by
    intro x; unfold Worker.opts; rw [ho]
  unfold runBlock runIdle
  dsimp only
  rw [hopt]
  unfold runAsCells
  rw [if_neg (by rintro (e | e) <;> cases e)]
  have hg : (Option.getD (some t0) w.st.time) = t0 := rfl
  dsimp only [Option.getD]
  rcases cell_loop E ⟨w.incr, true, some t0, some t⟩ t0 [i]
      { w.st with defined := true, rows := [], running := true } m hs
      (fun a ha _ => by simp only [List.mem_singleton] at ha; exact ha ▸ hc) with
    ⟨s, m', rows, h1, h2, h3, h4, h5⟩ | ⟨s, b, a, rest, m', rows, rows', h1, h2, h3, h4, h5, h6, h7, h8⟩
  · rw [h1]
    cases h2 with
    | skip _ _ _ _ _ hsk => exact absurd hsk hn
    | cell _ _ _ _ c' r r' sp _ ht hr =>
      cases hr
      rw [List.append_nil] at h4
      obtain ⟨n, c1, nx, b, o, hn1, hth, hc'⟩ := ht
      have h1n : n = 1 := by unfold IsSteps at hn1; rw [if_pos rfl] at hn1; exact hn1
      subst h1n
      have hlen := congrArg List.length (through_rows hth)
      simp only [List.length_map, List.length_range'] at hlen
      obtain ⟨r0, rfl⟩ := List.length_eq_one_iff.1 hlen
      refine .inl ⟨_, c', r0, sp, rfl, ⟨1, c1, nx, b, o, hn1, hth, hc'⟩, h3, ?_, rfl, rfl, ho⟩
      exact h4
  · rw [h1]
    have hb : b = [] ∧ a = i := by
      cases b with
      | nil => simp at h2; exact ⟨rfl, h2.1.symm⟩
      | cons x b => simp at h2
    obtain ⟨rfl, rfl⟩ := hb
    cases h3
    simp only [Prod.mk.injEq] at h8
    exact .inr ⟨_, rows', rfl, h5, h6, h8.1, rfl, ho⟩

/-- The loop over the cells. -/
theorem run_loop (E : Engine D) (mode : Int) (t0 t : ℚ) (active : Int → Bool) :
    ∀ (cells : List Int) (w : Worker D) (m : Maps D) (table : List (Option (Row D))),
    w.oneStep = true → Same w.st.maps m →
    (∀ i ∈ cells, active i = true → ¬ Skipped m i ∧ Clean E m i) →
    (∃ w' m' rows, runLoop E mode t0 t active cells w table = .done w' (table ++ rows) ∧
      Works E ⟨w.incr, true, some t0, some t⟩ t0 (decide (3 ≤ mode)) active cells m m' rows ∧
      Same w'.st.maps m' ∧ w'.incr = w.incr ∧
      ((w.st.defined = false ∨ ∃ a ∈ cells, active a = true) → LastFine active cells rows →
        w'.st.defined = false)) ∨
    (∃ w' before i rest m' rows r, runLoop E mode t0 t active cells w table = .thrown w' ∧
      mode < 3 ∧ cells = before ++ i :: rest ∧
      Works E ⟨w.incr, true, some t0, some t⟩ t0 false active before m m' rows ∧
      active i = true ∧
      Fails E ⟨w.incr, true, some t0, some t⟩ (m' .solution) t0 i (cellAt m' i) r ∧
      Same w'.st.maps m' ∧ w'.st.defined = true)
  | [], w, m, table, _, hs, _ =>
    .inl ⟨w, m, [], by rw [runLoop, List.append_nil], .nil m, hs, rfl,
      fun h _ => h.elim id (fun ⟨_, h, _⟩ => absurd h (by simp))⟩
  | i :: cells, w, m, table, ho, hs, hc => by
    rw [runLoop]
    by_cases ha : active i = true
    · rw [if_pos ha]
      obtain ⟨hn, hcl⟩ := hc i (by simp) ha
      rcases run_block E t0 t i w m ho hs hn hcl with
        ⟨w', c', r, sp, h1, h2, h3, h4, h5, h6, h7⟩ | ⟨w', rr, h1, h2, h3, h4, h5, h6⟩
      · rw [h1]
        dsimp only
        rw [h4]
        dsimp only
        have hc' : ∀ a ∈ cells, active a = true → ¬ Skipped (withCell m i c') a ∧
            Clean E (withCell m i c') a := by
          intro a hm haa
          obtain ⟨g1, g2⟩ := hc a (by simp [hm]) haa
          have hT : Treats E ⟨w.incr, true, some t0, some t⟩ t0 [i] m (withCell m i c') ([r] ++ []) :=
            .cell i [] m _ c' [r] [] sp hn h2 (.nil _)
          exact ⟨fun hh => g1 ((treats_skipped hT a).1 hh), clean_congr (withCell_mix h2 a).symm g2⟩
        rcases run_loop E mode t0 t active cells w' _ (table ++ [some r]) h7 h3 hc' with
          ⟨w2, m2, rows, k1, k2, k3, k4, k5⟩ | ⟨w2, b, j, rest, m2, rows, rf, k1, k0, k2, k3, k4, k5, k6⟩
        · rw [h6] at k2
          refine .inl ⟨w2, m2, some r :: rows, by rw [k1]; simp, .treated i _ _ _ c' r sp _ ha h2 k2,
            k3, k4.trans h6, fun _ hl => k5 (.inl h5) ?_⟩
          intro b j rest tb x tr e1 e2 e3 e4 e5
          exact hl (i :: b) j rest (some r :: tb) x tr (by rw [e1]; rfl) (by rw [e2]; rfl)
            (by simp [e3]) e4 e5
        · rw [h6] at k3 k5
          exact .inr ⟨w2, i :: b, j, rest, m2, some r :: rows, rf, k1, k0, by rw [k2]; rfl,
            .treated i _ _ _ c' r sp _ ha h2 k3, k4, k5, k6⟩
      · rw [h1]
        dsimp only
        by_cases hmode : mode < 3
        · rw [if_pos hmode]
          exact .inr ⟨w', [], i, cells, m, [], rr, rfl, hmode, rfl, .nil m, ha, h2, h3, h4⟩
        · rw [if_neg hmode]
          have hk : decide (3 ≤ mode) = true := decide_eq_true (by omega)
          have hc' : ∀ a ∈ cells, active a = true → ¬ Skipped m a ∧ Clean E m a :=
            fun a hm => hc a (by simp [hm])
          rcases run_loop E mode t0 t active cells w' m (table ++ [none]) h6 h3 hc' with
            ⟨w2, m2, rows, k1, k2, k3, k4, k5⟩ | ⟨w2, b, j, rest, m2, rows, rf, k1, k0, _⟩
          · rw [h5] at k2
            refine .inl ⟨w2, m2, none :: rows, by rw [k1]; simp, .failed i _ _ _ rr _ ha hk h2 k2,
              k3, k4.trans h5, ?_⟩
            intro _ hl
            by_cases hex : ∃ a ∈ cells, active a = true
            · refine k5 (.inr hex) ?_
              intro b j rest tb x tr e1 e2 e3 e4 e5
              exact hl (i :: b) j rest (none :: tb) x tr (by rw [e1]; rfl) (by rw [e2]; rfl)
                (by simp [e3]) e4 e5
            · refine absurd rfl (hl [] i cells [] none rows rfl rfl rfl ha ?_)
              intro a hm
              cases haa : active a with
              | false => rfl
              | true => exact absurd ⟨a, hm, haa⟩ hex
          · exact absurd k0 hmode
    · rw [if_neg ha]
      have ha' : active i = false := by cases h : active i <;> simp_all
      have hc' : ∀ a ∈ cells, active a = true → ¬ Skipped m a ∧ Clean E m a :=
        fun a hm => hc a (by simp [hm])
      rcases run_loop E mode t0 t active cells w m (table ++ [none]) ho hs hc' with
        ⟨w2, m2, rows, k1, k2, k3, k4, k5⟩ | ⟨w2, b, j, rest, m2, rows, rf, k1, k0, k2, k3, k4, k5, k6⟩
      · refine .inl ⟨w2, m2, none :: rows, by rw [k1]; simp, .dry i _ _ _ _ ha' k2, k3, k4, ?_⟩
        intro hd hl
        refine k5 ?_ ?_
        · rcases hd with hd | ⟨a, hm, haa⟩
          · exact .inl hd
          · rcases List.mem_cons.1 hm with rfl | hm
            · rw [ha'] at haa; cases haa
            · exact .inr ⟨a, hm, haa⟩
        intro b j rest tb x tr e1 e2 e3 e4 e5
        exact hl (i :: b) j rest (none :: tb) x tr (by rw [e1]; rfl) (by rw [e2]; rfl)
          (by simp [e3]) e4 e5
      · exact .inr ⟨w2, i :: b, j, rest, m2, none :: rows, rf, k1, k0, by rw [k2]; rfl,
          .dry i _ _ _ _ ha' k3, k4, k5, k6⟩

/-- **C167, the part that holds.** When no cell is left over from a failure before, a worker
treats each of its active cells exactly once, from what the cell contains, over the time
step of the module, with one row of selected output per cell (empty for a dry cell and,
under error handler mode 3, for a cell that fails).  Under the other modes the first failure
ends the call, with the cells before it treated and all others as they were.  Undefined
behaviour does not occur. -/
theorem worker_treats_once_partial (E : Engine D) (mode : Int) (t0 t : ℚ) (active : Int → Bool)
    (cells : List Int) (w : Worker D) (hd : w.st.defined = false)
    (hc : ∀ i ∈ cells, active i = true → ¬ Skipped w.st.maps i ∧ Clean E w.st.maps i) :
    (∃ w' m' table, runThread E mode t0 t active cells w = .done w' table ∧
      Works E ⟨w.incr, true, some t0, some t⟩ t0 (decide (3 ≤ mode)) active cells w.st.maps m'
        table ∧ Same w'.st.maps m') ∨
    (∃ w' before i rest m' rows r, runThread E mode t0 t active cells w = .thrown w' ∧
      mode < 3 ∧ cells = before ++ i :: rest ∧
      Works E ⟨w.incr, true, some t0, some t⟩ t0 false active before w.st.maps m' rows ∧
      active i = true ∧
      Fails E ⟨w.incr, true, some t0, some t⟩ (m' .solution) t0 i (cellAt m' i) r ∧
      Same w'.st.maps m') := by
  unfold runThread
  rw [runIdle_ready E { w with oneStep := true } hd]
  dsimp only
  rcases run_loop E mode t0 t active cells
      { w with oneStep := true, st := { w.st with rows := [] } } w.st.maps [] rfl
      (fun _ _ _ _ => rfl) hc with
    ⟨w', m', rows, h1, h2, h3, _⟩ | ⟨w', b, i, rest, m', rows, r, h1, h2, h3, h4, h5, h6, h7, _⟩
  · exact .inl ⟨w', m', rows, h1, h2, h3⟩
  · exact .inr ⟨w', b, i, rest, m', rows, r, h1, h2, h3, h4, h5, h6, h7⟩

/-- **C167, how the condition comes about.** After a call in which the last active cell did
not fail, no cell is left over; under the modes 0 to 2 that is every call that succeeds.
After a call that ends with a failure one is left over. -/
theorem nothing_left_over (E : Engine D) (mode : Int) (t0 t : ℚ) (active : Int → Bool)
    (cells : List Int) (w : Worker D) (hd : w.st.defined = false)
    (hc : ∀ i ∈ cells, active i = true → ¬ Skipped w.st.maps i ∧ Clean E w.st.maps i) :
    (∀ w' table, runThread E mode t0 t active cells w = .done w' table →
      (mode < 3 ∨ LastFine active cells table) → w'.st.defined = false) ∧
    (∀ w', runThread E mode t0 t active cells w = .thrown w' → w'.st.defined = true) := by
  unfold runThread
  rw [runIdle_ready E { w with oneStep := true } hd]
  dsimp only
  rcases run_loop E mode t0 t active cells
      { w with oneStep := true, st := { w.st with rows := [] } } w.st.maps [] rfl
      (fun _ _ _ _ => rfl) hc with
    ⟨w', m', rows, h1, h2, _, _, h3⟩ | ⟨w', b, i, rest, m', rows, r, h1, h2, h3, h4, h5, h6, h7, h8⟩
  · rw [h1]
    refine ⟨?_, fun _ h => by cases h⟩
    intro w2 tb h hm
    simp only [End.done.injEq, List.nil_append] at h
    obtain ⟨rfl, rfl⟩ := h
    refine h3 (.inl hd) ?_
    rcases hm with hm | hm
    · exact works_fine (by rw [decide_eq_false (by omega)] at h2; exact h2)
    · exact hm
  · rw [h1]
    refine ⟨fun _ _ h => (by cases h), ?_⟩
    intro w2 h
    simp only [End.thrown.injEq] at h
    subst h
    exact h8

end Verif.CellRun
