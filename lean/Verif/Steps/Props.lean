import Verif.Steps.Model
import Mathlib.Tactic.FieldSimp
import Mathlib.Tactic.Ring
import Mathlib.Tactic.Linarith
import Mathlib.Tactic.NormNum
import Mathlib.Algebra.Order.Field.Basic

/-!
# C61, C106–C110: reaction steps

The full statement of C61 fails for definitions without a number of increments:
`missing_count_violated`.
-/

namespace Verif.Steps

/-! ## Specification -/

/-- Progress after `j` of `n` equal parts of `total`; nothing is added after the last part. -/
def progress (total : ℚ) (n j : Nat) : ℚ := (min j n : Nat) * total / n

theorem progress_full (total : ℚ) {n j : Nat} (hn : 0 < n) (h : n ≤ j) :
    progress total n j = total := by
  have : (n : ℚ) ≠ 0 := by exact_mod_cast (by omega : n ≠ 0)
  rw [progress, min_eq_right h]
  field_simp

theorem progress_succ (total : ℚ) {n j : Nat} (hn : 0 < n) :
    progress total n (j + 1) = progress total n j + (if j + 1 ≤ n then total / n else 0) := by
  have hn' : (n : ℚ) ≠ 0 := by exact_mod_cast (by omega : n ≠ 0)
  unfold progress
  split
  · rename_i h
    rw [min_eq_left h, min_eq_left (by omega : j ≤ n)]
    push_cast
    ring
  · rename_i h
    rw [min_eq_right (by omega : n ≤ j + 1), min_eq_right (by omega : n ≤ j), add_zero]

/-- A definition of `n` equal increments with the given total. -/
structure Equal (k : Sched) (total : ℚ) (n : Nat) : Prop where
  equal : k.equal = true
  head : k.steps.head? = some total
  count : k.count = n
  pos : 0 < n

theorem Equal.nth {k : Sched} {total : ℚ} {n : Nat} (h : Equal k total n) :
    Steps.nth k.steps 0 = .ok total ∧ 0 < k.steps.length := by
  have := h.head
  cases hs : k.steps with
  | nil => rw [hs] at this; cases this
  | cons a l =>
    rw [hs] at this
    cases this
    exact ⟨rfl, by simp⟩

/-! ## The loop -/

theorem runSteps_ok {f : Int → Out ℚ} {F : Nat → ℚ} (inc : Bool) (m : Nat)
    (h : ∀ j : Nat, j < m → f ((j : Int) + 1) = .ok (F j)) :
    ∃ c, runSteps f inc m = .ok ((List.range m).map F, c) ∧
      (inc = true → c.now = ((List.range m).map F).sum ∧ c.start = c.now) ∧
      (inc = false → c.start = 0 ∧ ∀ j, m = j + 1 → c.now = F j) := by
  induction m with
  | zero => exact ⟨⟨0, 0⟩, rfl, fun _ => ⟨by simp, rfl⟩, fun _ => ⟨rfl, fun j hj => by omega⟩⟩
  | succ m ih =>
    obtain ⟨c, h1, h2, h3⟩ := ih (fun j hj => h j (by omega))
    refine ⟨c.turn inc (F m), ?_, ?_, ?_⟩
    · rw [runSteps, h1, Out.ok_bind]
      simp only
      rw [h m (by omega), Out.ok_bind, List.range_succ, List.map_append]
      rfl
    · intro hi
      obtain ⟨a, b⟩ := h2 hi
      subst hi
      simp only [Clock.turn, if_true, List.range_succ, List.map_append, List.map_cons,
        List.map_nil, List.sum_append, List.sum_cons, List.sum_nil, add_zero, and_true]
      rw [b, a]
    · intro hi
      subst hi
      refine ⟨(h3 rfl).1, fun j hj => ?_⟩
      have : j = m := by omega
      subst this
      rfl

theorem sum_increments (total : ℚ) {n : Nat} (hn : 0 < n) (m : Nat) :
    ((List.range m).map (fun j => if j + 1 ≤ n then total / n else 0)).sum =
      progress total n m := by
  induction m with
  | zero => simp [progress]
  | succ m ih =>
    rw [List.range_succ, List.map_append, List.sum_append, ih, progress_succ total hn]
    simp

theorem currentStep_incremental {k : Sched} {total : ℚ} {n : Nat} (h : Equal k total n)
    (j : Nat) :
    k.currentStep true ((j : Int) + 1) = .ok (if j + 1 ≤ n then total / n else 0) := by
  obtain ⟨h1, h2⟩ := h.nth
  have hn : ((n : Int) : ℚ) ≠ 0 := by have := h.pos; exact_mod_cast (by omega : n ≠ 0)
  unfold Sched.currentStep
  rw [if_neg (by omega), if_neg (by simp), if_neg (by simp [h.equal]), h.count]
  by_cases hj : j + 1 ≤ n
  · rw [if_neg (by omega), if_pos hj, h1, Out.ok_bind, quot, if_neg hn]
    simp
  · rw [if_pos (by omega), if_neg hj]

theorem currentStep_cumulative {k : Sched} {total : ℚ} {n : Nat} (h : Equal k total n)
    (j : Nat) : k.currentStep false ((j : Int) + 1) = .ok (progress total n (j + 1)) := by
  obtain ⟨h1, h2⟩ := h.nth
  have hn : ((n : Int) : ℚ) ≠ 0 := by have := h.pos; exact_mod_cast (by omega : n ≠ 0)
  unfold Sched.currentStep
  rw [if_neg (by omega), if_pos rfl, if_neg (by simp [h.equal]), h.count]
  by_cases hj : j + 1 ≤ n
  · rw [if_neg (by omega), h1, Out.ok_bind, quot, if_neg hn, progress, min_eq_left hj]
    push_cast
    rfl
  · rw [if_pos (by omega), h1, progress_full total h.pos (by omega)]

/-- C61 (partial). For every total and every number `n ≥ 1` of equal increments, and any number
of steps that other reactants ask for: the times given to the reaction in incremental mode add up
to the progress made, the clock shows that progress, and in the other mode the clock shows the
same; from step `n` on it is the total. Missing: definitions without a number of increments
(`missing_count_violated`). -/
theorem equal_increments_partial {k : Sched} {total : ℚ} {n : Nat} (h : Equal k total n)
    (m : Nat) (hm : 0 < m) :
    ∃ ts c ts' c',
      runSteps (k.currentStep true) true m = .ok (ts, c) ∧
      runSteps (k.currentStep false) false m = .ok (ts', c') ∧
      ts.length = m ∧ ts.sum = progress total n m ∧ c.now = progress total n m ∧
      ts'.getLast? = some (progress total n m) ∧ c'.now = progress total n m ∧
      (n ≤ m → ts.sum = total ∧ c'.now = total) := by
  obtain ⟨c, h1, h2, _⟩ := runSteps_ok true m (fun j _ => currentStep_incremental h j)
  obtain ⟨c', h3, _, h4⟩ := runSteps_ok false m (fun j _ => currentStep_cumulative h j)
  obtain ⟨j, rfl⟩ : ∃ j, m = j + 1 := ⟨m - 1, by omega⟩
  have e1 := sum_increments total h.pos (j + 1)
  have e2 := (h4 rfl).2 j rfl
  refine ⟨_, c, _, c', h1, h3, by simp, e1, by rw [(h2 rfl).1, e1], ?_, e2, fun hn => ?_⟩
  · simp [List.range_succ]
  · rw [e1, e2, progress_full total h.pos hn]
    exact ⟨rfl, rfl⟩

/-- Explicit steps in incremental mode: each is run once, in order, and further steps that other
reactants ask for repeat the last one. -/
theorem explicit_steps (k : Sched) (he : k.equal = false) (hne : k.steps ≠ []) (m : Nat) :
    ∃ c, runSteps (k.currentStep true) true m =
        .ok (k.steps.take m ++ List.replicate (m - k.steps.length) (k.steps.getLast hne), c) ∧
      c.now = (k.steps.take m).sum + (m - k.steps.length : Nat) * k.steps.getLast hne := by
  have hl : 0 < k.steps.length := List.length_pos_iff.mpr hne
  have hF : ∀ j : Nat, j < m → k.currentStep true ((j : Int) + 1) =
      .ok (if hj : j < k.steps.length then k.steps[j] else k.steps.getLast hne) := by
    intro j _
    unfold Sched.currentStep
    rw [if_neg (by omega), if_neg (by simp), if_pos he]
    by_cases hj : j < k.steps.length
    · rw [if_neg (by omega), dif_pos hj, nth, if_pos (by omega)]
      have : ((j : Int) + 1 - 1).toNat = j := by omega
      rw [this, List.getElem?_eq_getElem hj]
    · rw [if_pos (by omega), dif_neg hj, nth, if_pos (by omega)]
      have : ((k.steps.length : Int) - 1).toNat = k.steps.length - 1 := by omega
      rw [this, List.getElem?_eq_getElem (by omega), List.getLast_eq_getElem]
  obtain ⟨c, h1, h2, _⟩ := runSteps_ok true m hF
  have e : (List.range m).map
      (fun j => if hj : j < k.steps.length then k.steps[j] else k.steps.getLast hne) =
      k.steps.take m ++ List.replicate (m - k.steps.length) (k.steps.getLast hne) := by
    refine List.ext_getElem (by simp; omega) fun i hi1 hi2 => ?_
    simp only [List.length_map, List.length_range] at hi1
    rw [List.getElem_map, List.getElem_range]
    by_cases hi : i < k.steps.length
    · rw [dif_pos hi, List.getElem_append_left (by simp; omega), List.getElem_take]
    · rw [dif_neg hi, List.getElem_append_right (by simp; omega), List.getElem_replicate]
  refine ⟨c, by rw [h1, e], ?_⟩
  rw [(h2 rfl).1, e]
  simp

/-! ## What the readers accept -/

theorem findCount_word (ts : List Tok) (i : Int) (t : Tok) (ht : t.int = some i)
    (ws : List Tok) (hw : ∀ w ∈ ws, w.int = none) :
    findCount (ws ++ t :: ts) = some ((i.natAbs : Int), ts) := by
  induction ws with
  | nil => simp [findCount, ht]
  | cons w ws ih =>
    rw [List.cons_append, findCount, hw w List.mem_cons_self]
    exact ih (fun v hv => hw v (List.mem_cons_of_mem _ hv))

theorem readSteps_words (k : Sched) (e : Nat) (ws : List Tok) (hw : ∀ w ∈ ws, w = .word false) :
    readSteps k e ws = (k, e) := by
  induction ws with
  | nil => rw [readSteps]
  | cons w ws ih =>
    rw [hw w List.mem_cons_self, readSteps]
    exact ih (fun v hv => hw v (List.mem_cons_of_mem _ hv))

/-- `-steps T in n steps` is read as `|n|` equal increments of the total `T`, for every `n ≠ 0`:
the premise of `equal_increments_partial` is what the reader makes of the documented input. -/
theorem read_equal (total y : ℚ) (t : Option Int) (n : Int) (hn : n ≠ 0) (ws : List Tok)
    (hw : ∀ w ∈ ws, w = .word false) :
    ∃ k, readKinetics (.num total t :: .word true :: .num y (some n) :: ws) = some k ∧
      Equal k total n.natAbs := by
  have e : readSteps Sched.new 0 (.num total t :: .word true :: .num y (some n) :: ws) =
      (⟨[total], true, n.natAbs⟩, 0) := by
    rw [readSteps, readSteps]
    simp only [Sched.new, List.nil_append, List.length_singleton, ne_eq, not_true, if_false]
    split
    · rename_i c r h
      rw [show Tok.num y (some n) :: ws = [] ++ Tok.num y (some n) :: ws from rfl,
        findCount_word ws n _ rfl [] (by simp)] at h
      cases h
      exact readSteps_words _ _ _ hw
    · rename_i h
      rw [show Tok.num y (some n) :: ws = [] ++ Tok.num y (some n) :: ws from rfl,
        findCount_word ws n _ rfl [] (by simp)] at h
      cases h
  refine ⟨⟨[total], true, n.natAbs⟩, ?_, rfl, rfl, rfl, by omega⟩
  rw [readKinetics, e]
  rfl

/-- C61 fails: `-steps T in`, without a number, is read without an error as zero equal increments;
the total of the increments is 0 and not `T`, although the other mode reaches `T`. -/
theorem missing_count_violated (total : ℚ) (t : Option Int) (m : Nat) (hm : 0 < m) :
    ∃ k, readKinetics [.num total t, .word true] = some k ∧
      (∃ ts c, runSteps (k.currentStep true) true m = .ok (ts, c) ∧ ts.sum = 0 ∧ c.now = 0) ∧
      (∃ ts c, runSteps (k.currentStep false) false m = .ok (ts, c) ∧ c.now = total) := by
  have e : readSteps Sched.new 0 [.num total t, .word true] = (⟨[total], true, 0⟩, 0) := by
    rw [readSteps, readSteps]
    simp only [Sched.new, List.nil_append, List.length_singleton, ne_eq, not_true, if_false]
    split
    · rename_i h
      cases h
    · rfl
  refine ⟨⟨[total], true, 0⟩, by rw [readKinetics, e]; rfl, ?_, ?_⟩
  · obtain ⟨c, h1, h2, _⟩ := runSteps_ok (f := (⟨[total], true, 0⟩ : Sched).currentStep true)
      (F := fun _ => 0) true m (by
        intro j _
        unfold Sched.currentStep
        rw [if_neg (by simp), if_neg (by simp), if_neg (by simp), if_pos (by simp only; omega)])
    refine ⟨_, c, h1, by simp, ?_⟩
    rw [(h2 rfl).1]; simp
  · obtain ⟨c, h1, _, h2⟩ := runSteps_ok (f := (⟨[total], true, 0⟩ : Sched).currentStep false)
      (F := fun _ => total) false m (by
        intro j _
        unfold Sched.currentStep
        rw [if_neg (by simp), if_pos rfl, if_neg (by simp), if_pos (by simp only; omega)]
        rfl)
    exact ⟨_, c, h1, (h2 rfl).2 (m - 1) (by omega)⟩

/-! ## C106: stepwise reactions -/

theorem stepX_incremental {r : Sched} {total : ℚ} {n : Nat} (h : Equal r total n) (j : Nat) :
    r.stepX true ((j : Int) + 1) = .ok (if j + 1 ≤ n then total / n else 0) := by
  obtain ⟨h1, h2⟩ := h.nth
  have hn : ((n : Int) : ℚ) ≠ 0 := by have := h.pos; exact_mod_cast (by omega : n ≠ 0)
  have hr : r.reactionSteps = n := by simp [Sched.reactionSteps, h.equal, h.count]
  unfold Sched.stepX
  rw [if_neg (by simp), if_neg (by simp [h.equal]), if_pos ⟨h.equal, h2⟩, hr]
  by_cases hj : j + 1 ≤ n
  · rw [if_neg (by omega), if_pos hj, h1, Out.ok_bind, quot, if_neg hn]
    simp
  · rw [if_pos (by omega), if_neg hj]

theorem stepX_cumulative {r : Sched} {total : ℚ} {n : Nat} (h : Equal r total n) (j : Nat) :
    r.stepX false ((j : Int) + 1) = .ok (progress total n (j + 1)) := by
  obtain ⟨h1, h2⟩ := h.nth
  have hn : ((n : Int) : ℚ) ≠ 0 := by have := h.pos; exact_mod_cast (by omega : n ≠ 0)
  have hr : r.reactionSteps = n := by simp [Sched.reactionSteps, h.equal, h.count]
  unfold Sched.stepX
  rw [if_pos rfl, if_neg (by simp [h.equal]), if_pos ⟨h.equal, h2⟩, hr]
  by_cases hj : j + 1 ≤ n
  · rw [if_neg (by omega), h1, Out.ok_bind, quot, if_neg hn, progress, min_eq_left hj, mul_comm]
    push_cast
    rfl
  · rw [if_pos (by omega), h1, progress_full total h.pos (by omega)]

/-- Every equal-increment definition `REACTION` accepts has a positive number of increments. -/
theorem reaction_read (r r' : Sched) (ts : List Tok) (hr : r.equal = false)
    (h : reactionCount r ts = some r') :
    ∃ total n, Equal r'.finishReaction total n ∧ r.steps = [total] := by
  unfold reactionCount at h
  split at h
  · cases h
  · rename_i hs
    simp only [Sched.reactionSteps, hr, ne_eq, Decidable.not_not] at hs
    obtain ⟨x, hx⟩ : ∃ x, r.steps = [x] := List.length_eq_one_iff.mp (by simp at hs; omega)
    split at h
    · split at h
      · rename_i i _ hi
        cases h
        refine ⟨x, i.toNat, ⟨?_, ?_, ?_, by omega⟩, hx⟩
        all_goals
          simp only [Sched.finishReaction, hx, List.length_singleton]
          simp only [one_ne_zero, if_false]
          rw [if_neg (by simp; omega)]
        · simp
        · simp only
          omega
      · cases h
    · cases h

/-- C106. For every equal-increment reaction that the reader accepts, and any number of steps run:
the amounts of the incremental mode add up to the amount of the other mode, and from the last
increment on to the total. -/
theorem reaction_amounts (r r' : Sched) (ts : List Tok) (hr : r.equal = false)
    (h : reactionCount r ts = some r') :
    ∃ total n, r.steps = [total] ∧ 0 < n ∧ ∀ m : Nat, 0 < m →
      ∃ xs, (List.range m).mapM (fun (j : Nat) => r'.finishReaction.stepX true ((j : Int) + 1)) =
          .ok xs ∧
        r'.finishReaction.stepX false m = .ok xs.sum ∧ (n ≤ m → xs.sum = total) := by
  obtain ⟨total, n, he, hs⟩ := reaction_read r r' ts hr h
  refine ⟨total, n, hs, he.pos, fun m hm => ?_⟩
  refine ⟨(List.range m).map (fun j => if j + 1 ≤ n then total / n else 0), ?_, ?_, ?_⟩
  · generalize List.range m = l
    induction l with
    | nil => rfl
    | cons j l ih =>
      rw [List.mapM_cons, stepX_incremental he j, Out.ok_bind, ih, Out.ok_bind]
      rfl
  · obtain ⟨j, rfl⟩ : ∃ j, m = j + 1 := ⟨m - 1, by omega⟩
    rw [sum_increments total he.pos]
    have := stepX_cumulative he j
    push_cast
    exact this
  · intro hn
    rw [sum_increments total he.pos, progress_full total he.pos hn]

/-! ## C107, C108: the time of `RunCells` -/

/-- C107 (partial). `RUN_CELLS` with a time step runs the kinetics of a cell for exactly that time,
however many steps its definitions ask for, whatever the kinetics' own steps, and in both modes.
Missing: the time step −98.7654321 (`na_time_step_violated`). -/
theorem runCells_time_partial (c : Cell) (k : Sched) (hk : c.kinetics = some k) (dt : ℚ)
    (hdt : dt ≠ NA) (oneStep : Bool) :
    (∃ ts clock, c.run dt true oneStep = .ok (ts, clock) ∧ ts.sum = dt ∧ clock.now = dt) ∧
    (∃ ts clock, c.run dt false oneStep = .ok (ts, clock) ∧ ts.getLast? = some dt ∧
      clock.now = dt) := by
  have hpos : 1 ≤ c.countSteps oneStep := by
    unfold Cell.countSteps
    split
    · exact le_refl _
    · exact le_trans (le_max_left 1 c.otherSteps) (le_max_left _ _)
  obtain ⟨n, hn⟩ : ∃ n : Nat, c.countSteps oneStep = (n : Int) :=
    ⟨(c.countSteps oneStep).toNat, by omega⟩
  have hn0 : ((n : Int) : ℚ) ≠ 0 := by exact_mod_cast (by omega : n ≠ 0)
  constructor
  · obtain ⟨clock, h1, h2, _⟩ := runSteps_ok
      (f := c.kinTime dt true (c.countSteps oneStep)) (F := fun _ => dt / n) true
      (c.countSteps oneStep).toNat (by
        intro j _
        unfold Cell.kinTime
        simp only [hk, ne_eq, hdt, not_false_iff, if_true]
        rw [if_neg (by simp), hn, quot, if_neg hn0]
        simp)
    have e : ((List.range (c.countSteps oneStep).toNat).map (fun _ => dt / (n : ℚ))).sum = dt := by
      have hn' : (n : ℚ) ≠ 0 := by exact_mod_cast (by omega : n ≠ 0)
      rw [hn]
      simp only [Int.toNat_natCast, List.map_const', List.length_range, List.sum_replicate,
        nsmul_eq_mul]
      field_simp
    exact ⟨_, clock, h1, e, by rw [(h2 rfl).1, e]⟩
  · obtain ⟨clock, h1, _, h2⟩ := runSteps_ok
      (f := c.kinTime dt false (c.countSteps oneStep)) (F := fun j => ((j : ℚ) + 1) * dt / n) false
      (c.countSteps oneStep).toNat (by
        intro j _
        unfold Cell.kinTime
        simp only [hk, ne_eq, hdt, not_false_iff, if_true]
        rw [hn, quot, if_neg hn0]
        push_cast
        rfl)
    obtain ⟨j, rfl⟩ : ∃ j, n = j + 1 := ⟨n - 1, by omega⟩
    have hm : (c.countSteps oneStep).toNat = j + 1 := by omega
    have e : ((j : ℚ) + 1) * dt / ((j + 1 : Nat) : ℚ) = dt := by
      have : ((j : ℚ) + 1) ≠ 0 := by exact_mod_cast (by omega : j + 1 ≠ 0)
      push_cast
      field_simp
    refine ⟨_, clock, h1, ?_, ?_⟩
    · rw [hm, List.range_succ, List.map_append]
      simp only [List.map_cons, List.map_nil, List.getLast?_append, List.getLast?_singleton]
      rw [e]
      rfl
    · rw [(h2 rfl).2 j hm, e]

/-- C107 fails: with the time step that stands for "undefined" the kinetics run for their own first
step instead. -/
theorem na_time_step_violated (c : Cell) (k : Sched) (hk : c.kinetics = some k)
    (he : k.equal = false) (t : ℚ) (ts : List ℚ) (hs : k.steps = t :: ts) (incremental : Bool) :
    ∃ clock, c.run NA incremental true = .ok ([t], clock) ∧ clock.now = t := by
  have h : k.currentStep incremental 1 = .ok t := by
    unfold Sched.currentStep
    cases incremental <;> simp [hs, he, nth]
  refine ⟨(⟨0, 0⟩ : Clock).turn incremental t, ?_, ?_⟩
  · simp [Cell.run, Cell.countSteps, runSteps, Cell.kinTime, hk, h]
  · cases incremental <;> simp [Clock.turn]

/-- C108 (partial). `TOTAL_TIME` in a cell with kinetics after `RunCells` is the time of the
module. Missing: cells without kinetics (`total_time_violated`). -/
theorem total_time_partial (c : Cell) (k : Sched) (hk : c.kinetics = some k) (time dt : ℚ)
    (hdt : dt ≠ NA) (incremental : Bool) : c.reported time dt incremental = .ok time := by
  obtain ⟨⟨t1, c1, a1, _, a2⟩, ⟨t2, c2, b1, _, b2⟩⟩ := runCells_time_partial c k hk dt hdt true
  unfold Cell.reported
  cases incremental
  · rw [b1, Out.ok_bind]
    simp [Cell.totalTime, hk, b2]
  · rw [a1, Out.ok_bind]
    simp [Cell.totalTime, hk, a2]

/-- C108 fails: in a cell without kinetics `TOTAL_TIME` is 0 whatever the time. -/
theorem total_time_violated (c : Cell) (hk : c.kinetics = none) (time dt : ℚ)
    (incremental : Bool) : c.reported time dt incremental = .ok 0 := by
  have h : c.run dt incremental true =
      .ok ([0], (⟨0, 0⟩ : Clock).turn incremental 0) := by
    simp [Cell.run, Cell.countSteps, runSteps, Cell.kinTime, hk]
  unfold Cell.reported
  rw [h, Out.ok_bind]
  simp [Cell.totalTime, hk]

/-! ## C109: temperature and pressure steps -/

/-- C109. With equal increments (two values, as the reader demands, and a positive number of
steps): the first step has the first value, the last of at least two steps the second, every step
of the definition lies between the two, further steps stay at the second, and the differences
between steps are equal. -/
theorem ramp (t0 t1 : ℚ) (n : Nat) (hn : 0 < n) :
    let k : Sched := ⟨[t0, t1], true, n⟩
    k.forStep 1 = .ok t0 ∧
    (2 ≤ n → k.forStep n = .ok t1) ∧
    (∀ j : Nat, n < j → k.forStep j = .ok t1) ∧
    (∀ j : Nat, 1 ≤ j → j ≤ n → ∃ t, k.forStep j = .ok t ∧ min t0 t1 ≤ t ∧ t ≤ max t0 t1) ∧
    (∀ j : Nat, 1 ≤ j → j < n → ∃ t t', k.forStep j = .ok t ∧ k.forStep (j + 1 : Nat) = .ok t' ∧
      (t' - t) * (n - 1) = t1 - t0) := by
  have one : ∀ j : Nat, j ≤ n → (⟨[t0, t1], true, n⟩ : Sched).forStep j =
      .ok (t0 + (t1 - t0) * ((j : ℚ) - 1) / (if n ≤ 1 then 1 else (n : ℚ) - 1)) := by
    intro j hj
    unfold Sched.forStep
    rw [if_neg (by simp), if_pos rfl, if_neg (by simpa using hj)]
    have e0 : nth [t0, t1] 0 = .ok t0 := rfl
    have e1 : nth [t0, t1] 1 = .ok t1 := rfl
    simp only [e0, e1, Out.ok_bind]
    by_cases h1 : n ≤ 1
    · rw [if_pos (by exact_mod_cast h1), if_pos h1]
      simp
    · rw [if_neg (by exact_mod_cast h1), if_neg h1]
      simp
  refine ⟨?_, ?_, ?_, ?_, ?_⟩
  · have := one 1 hn
    simpa using this
  · intro h2
    have := one n le_rfl
    rw [this, if_neg (by omega)]
    have : (n : ℚ) - 1 ≠ 0 := by
      have : (2 : ℚ) ≤ n := by exact_mod_cast h2
      intro h; linarith
    congr 1
    field_simp
    ring
  · intro j hj
    unfold Sched.forStep
    rw [if_neg (by simp), if_pos rfl, if_pos (by simpa using hj)]
    rfl
  · intro j h1 hj
    refine ⟨_, one j hj, ?_⟩
    by_cases hn1 : n ≤ 1
    · have : j = 1 := by omega
      subst this
      simp
    · rw [if_neg hn1]
      have hn2 : (0 : ℚ) < (n : ℚ) - 1 := by
        have : (2 : ℚ) ≤ n := by exact_mod_cast (by omega : 2 ≤ n)
        linarith
      have hj1 : (1 : ℚ) ≤ j := by exact_mod_cast h1
      have hj2 : (j : ℚ) ≤ n := by exact_mod_cast hj
      have hx0 : 0 ≤ ((j : ℚ) - 1) / (n - 1) := div_nonneg (by linarith) hn2.le
      have hx1 : ((j : ℚ) - 1) / (n - 1) ≤ 1 := (div_le_one hn2).mpr (by linarith)
      rw [mul_div_assoc]
      generalize ((j : ℚ) - 1) / (n - 1) = x at hx0 hx1
      rcases le_total t0 t1 with h | h
      · rw [min_eq_left h, max_eq_right h]
        constructor <;> nlinarith
      · rw [min_eq_right h, max_eq_left h]
        constructor <;> nlinarith
  · intro j h1 hj
    refine ⟨_, _, one j (by omega), one (j + 1) hj, ?_⟩
    rw [if_neg (by omega)]
    have : (n : ℚ) - 1 ≠ 0 := by
      have : (2 : ℚ) ≤ n := by exact_mod_cast (by omega : 2 ≤ n)
      intro h; linarith
    push_cast
    field_simp
    ring

/-! ## C110: units of time -/

/-- C110. Converting a time to another unit and back returns it, and conversion through a third
unit is the direct conversion, for all units. -/
theorem convert_time (t : ℚ) (a b c : TimeUnit) :
    convertTime (convertTime t a b) b a = t ∧
    convertTime (convertTime t a b) b c = convertTime t a c ∧
    convertTime t .minute .other = 60 * t ∧ convertTime t .hour .minute = 60 * t ∧
    convertTime t .day .hour = 24 * t ∧ convertTime t .year .day = (365 + 1 / 4) * t := by
  have pos : ∀ u : TimeUnit, u.seconds ≠ 0 := by
    intro u; cases u <;> norm_num [TimeUnit.seconds]
  have ha := pos a
  have hb := pos b
  have hc := pos c
  refine ⟨?_, ?_, ?_, ?_, ?_, ?_⟩ <;> unfold convertTime
  · field_simp
  · field_simp
  · norm_num [TimeUnit.seconds]; ring
  · norm_num [TimeUnit.seconds]; ring
  · norm_num [TimeUnit.seconds]; ring
  · norm_num [TimeUnit.seconds]; ring

end Verif.Steps
