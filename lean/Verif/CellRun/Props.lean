import Verif.CellRun.Lists

/-!
# Properties of `RUN_CELLS`

Every theorem holds for any chemistry `E` (any function that says what a step makes of
what it is given), any content of the reactant maps, any list of cells, and any
records of use and saving left over from earlier calculations.
-/

namespace Verif.CellRun

variable {D : Type}

/-- The state in which a `RUN_CELLS` block with cells in it has been read. -/
def Called (cells : List Int) (st : St D) : Prop := cells ≠ [] ∧ st.defined = true

/-- **C161.** `RUN_CELLS` treats the cells of its list one after the other, each from what
it contains when its turn comes: every cell gets the content its own treatment gives,
the rows of selected output are those of the treatments in order, and nothing else
changes outside the working numbers -1 and -2.  The run never reads an entity that is
not there; it ends early only when the chemistry of a cell fails, and then the cells
before it are treated, and it and the ones after it are as they were. -/
theorem run_cells_refines (E : Engine D) (O : Opts) (cells : List Int) (st : St D)
    (hc : Called cells st) (hcl : ∀ i ∈ cells, 0 ≤ i → Clean E st.maps i) :
    (∃ st' m' rows, runAsCells E O cells st = .ok st' ∧
      Treats E O (O.start.getD st.time) cells st.maps m' rows ∧ Same st'.maps m' ∧
      st'.rows = st.rows ++ rows) ∨
    (∃ st' before i rest m' rows rows', runAsCells E O cells st = .stop st' ∧
      cells = before ++ i :: rest ∧
      Treats E O (O.start.getD st.time) before st.maps m' rows ∧ ¬ Skipped m' i ∧
      Fails E O (m' .solution) (O.start.getD st.time) i (cellAt m' i) rows' ∧
      Same st'.maps m' ∧ st'.rows = st.rows ++ rows ++ rows') := by
  have hne : ¬ (cells = [] ∨ st.defined = false) := by
    rintro (h | h)
    · exact hc.1 h
    · rw [hc.2] at h; exact absurd h (by decide)
  unfold runAsCells
  rw [if_neg hne]
  rcases cell_loop E O (O.start.getD st.time) cells { st with running := true } st.maps
    (fun _ _ _ _ => rfl) hcl with
    ⟨st', m', rows, h1, h2, h3, h4, _⟩ | ⟨st', b, i, rest, m', rows, rows', h1, h2, h3, h4, h5, h6, h7, _⟩
  · rw [h1]
    exact .inl ⟨_, m', rows, rfl, h2, h3, h4⟩
  · rw [h1]
    exact .inr ⟨_, b, i, rest, m', rows, rows', rfl, h2, h3, h4, h5, h6, h7⟩

/-- **C161.** The outcome depends only on the entities outside the working numbers, the
options and the time at the start: leftovers of earlier calculations in the same
instance (what was in use, where results were saved, old results, the slots -1 and -2)
play no part. -/
theorem run_cells_repeatable (E : Engine D) (O : Opts) (cells : List Int) (st1 st2 : St D)
    (h1 : Called cells st1) (h2 : Called cells st2)
    (hcl : ∀ i ∈ cells, 0 ≤ i → Clean E st1.maps i) (hs : Same st1.maps st2.maps)
    (ht : O.start.getD st1.time = O.start.getD st2.time) :
    (∃ r1 r2 new, runAsCells E O cells st1 = .ok r1 ∧ runAsCells E O cells st2 = .ok r2 ∧
      Same r1.maps r2.maps ∧ r1.rows = st1.rows ++ new ∧ r2.rows = st2.rows ++ new) ∨
    (∃ r1 r2, runAsCells E O cells st1 = .stop r1 ∧ runAsCells E O cells st2 = .stop r2 ∧
      Same r1.maps r2.maps) := by
  have g1 := cell_loop E O (O.start.getD st1.time) cells { st1 with running := true } st2.maps hs
    (fun i hi h0 => clean_congr (hs .mix i (by omega) (by omega)) (hcl i hi h0))
  have g2 := cell_loop E O (O.start.getD st1.time) cells { st2 with running := true } st2.maps
    (fun _ _ _ _ => rfl)
    (fun i hi h0 => clean_congr (hs .mix i (by omega) (by omega)) (hcl i hi h0))
  have e1 : ∀ st : St D, Called cells st → runAsCells E O cells st =
      match cellLoop E O (O.start.getD st.time) cells { st with running := true } with
      | .ok st' => .ok { st' with time := st'.time + st'.sim, defined := false, running := false }
      | r => r := by
    intro st hc
    unfold runAsCells
    rw [if_neg (by
      rintro (h | h)
      · exact hc.1 h
      · rw [hc.2] at h; exact absurd h (by decide))]
    cases cellLoop E O (O.start.getD st.time) cells { st with running := true } <;> rfl
  have trans : ∀ {a b c : Maps D}, Same a c → Same b c → Same a b :=
    fun ha hb k n x y => (ha k n x y).trans (hb k n x y).symm
  -- two different failing cells, or one run that fails and one that does not, cannot be
  have lists : ∀ (l1 l2 : List Int) (a1 a2 : Int) (r1 r2 : List Int), l1 ++ a1 :: r1 = l2 ++ a2 :: r2 →
      (l1 = l2 ∧ a1 = a2) ∨ (∃ r, l2 = l1 ++ a1 :: r) ∨ (∃ r, l1 = l2 ++ a2 :: r) := by
    intro l1
    induction l1 with
    | nil =>
      intro l2 a1 a2 r1 r2 h
      cases l2 with
      | nil => simp at h; exact .inl ⟨rfl, h.1⟩
      | cons b l2 => simp at h; exact .inr (.inl ⟨l2, by simp [h.1]⟩)
    | cons b l1 ih =>
      intro l2 a1 a2 r1 r2 h
      cases l2 with
      | nil => simp at h; exact .inr (.inr ⟨l1, by simp [h.1]⟩)
      | cons b' l2 =>
        simp at h
        obtain ⟨rfl, h⟩ := h
        rcases ih l2 a1 a2 r1 r2 h with ⟨rfl, rfl⟩ | ⟨r, rfl⟩ | ⟨r, rfl⟩
        · exact .inl ⟨rfl, rfl⟩
        · exact .inr (.inl ⟨r, rfl⟩)
        · exact .inr (.inr ⟨r, rfl⟩)
  rw [e1 st1 h1, e1 st2 h2, ← ht]
  rcases g1 with ⟨r1, m1, w1, a1, a2, a3, a4, _⟩ | ⟨r1, b1, i1, s1, m1, w1, w1', a1, a2, a3, a4, a5, a6, _⟩
  · rcases g2 with ⟨r2, m2, w2, c1, c2, c3, c4, _⟩ |
      ⟨r2, b2, i2, s2, m2, w2, w2', c1, c2, c3, c4, c5, c6, _⟩
    · obtain ⟨rfl, rfl⟩ := treats_unique a2 c2
      rw [a1, c1]
      exact .inl ⟨_, _, w1, rfl, rfl, trans a3 c3, a4, c4⟩
    · rw [c2] at a2
      exact (treats_not_fails _ _ _ _ _ _ _ _ _ a2 c3 c4 c5).elim
  · rcases g2 with ⟨r2, m2, w2, c1, c2, c3, c4, _⟩ |
      ⟨r2, b2, i2, s2, m2, w2, w2', c1, c2, c3, c4, c5, c6, _⟩
    · rw [a2] at c2
      exact (treats_not_fails _ _ _ _ _ _ _ _ _ c2 a3 a4 a5).elim
    · rw [a1, c1]
      rcases lists b1 b2 i1 i2 s1 s2 (a2.symm.trans c2) with ⟨rfl, rfl⟩ | ⟨r, rfl⟩ | ⟨r, rfl⟩
      · obtain ⟨rfl, rfl⟩ := treats_unique a3 c3
        exact .inr ⟨_, _, rfl, rfl, trans a6 c6⟩
      · exact (treats_not_fails _ _ _ _ _ _ _ _ _ c3 a3 a4 a5).elim
      · exact (treats_not_fails _ _ _ _ _ _ _ _ _ a3 c3 c4 c5).elim

/-- **C162, the part that holds.** When no `MIX` of a listed cell names a listed cell, every
cell is treated from what it contained before the run, whatever the other cells are. -/
theorem cells_on_their_own_partial (E : Engine D) (O : Opts) (cells : List Int) (st st' : St D)
    (hc : Called cells st) (hcl : ∀ i ∈ cells, 0 ≤ i → Clean E st.maps i) (hd : cells.Nodup)
    (hm : ∀ i ∈ cells, ∀ d, st.maps .mix i = some d → ∀ n ∈ E.named d, n ∉ cells)
    (h : runAsCells E O cells st = .ok st') :
    ∀ i ∈ cells, ¬ Skipped st.maps i → ∃ rows spent,
      Treated E O (st.maps .solution) (O.start.getD st.time) i (cellAt st.maps i)
        (cellAt st'.maps i) rows spent := by
  intro i hi hs
  rcases run_cells_refines E O cells st hc hcl with ⟨st1, m', rows, h1, h2, h3, _⟩ | ⟨st1, _, _, _, _, _, _, h1, _⟩
  · rw [h] at h1
    cases h1
    obtain ⟨r, sp, ht⟩ := treats_each h2 hd hm i hi hs
    rw [cellAt_congr h3 (not_skipped_nonneg hs)]
    exact ⟨r, sp, ht⟩
  · rw [h] at h1; cases h1

/-- **C162, the part that holds.** Under the same condition the order of the cells is of no
consequence: a run in any other order succeeds too and gives the same entities. -/
theorem order_irrelevant_partial (E : Engine D) (O : Opts) (cells cells' : List Int)
    (st st' : St D) (hp : cells.Perm cells') (hc : Called cells st)
    (hcl : ∀ i ∈ cells, 0 ≤ i → Clean E st.maps i) (hd : cells.Nodup)
    (hm : ∀ i ∈ cells, ∀ d, st.maps .mix i = some d → ∀ n ∈ E.named d, n ∉ cells)
    (h : runAsCells E O cells st = .ok st') :
    ∃ st'', runAsCells E O cells' st = .ok st'' ∧ Same st'.maps st''.maps := by
  have hc' : Called cells' st := by
    refine ⟨?_, hc.2⟩
    rintro rfl
    exact hc.1 hp.eq_nil
  have hcl' : ∀ i ∈ cells', 0 ≤ i → Clean E st.maps i := fun i hi => hcl i (hp.mem_iff.2 hi)
  have hd' := hp.nodup hd
  have hm' : ∀ i ∈ cells', ∀ d, st.maps .mix i = some d → ∀ n ∈ E.named d, n ∉ cells' :=
    fun i hi d hid n hn hin => hm i (hp.mem_iff.2 hi) d hid n hn (hp.mem_iff.2 hin)
  rcases run_cells_refines E O cells st hc hcl with ⟨s1, m1, r1, a1, a2, a3, _⟩ | ⟨s1, _, _, _, _, _, _, a1, _⟩
  swap
  · rw [h] at a1; cases a1
  rw [h] at a1
  cases a1
  have each := treats_each a2 hd hm
  rcases run_cells_refines E O cells' st hc' hcl' with
    ⟨s2, m2, r2, b1, b2, b3, _⟩ | ⟨s2, bef, i, rest, m2, r2, r2', b1, b2, b3, b4, b5, _⟩
  · refine ⟨s2, b1, ?_⟩
    intro k n hn1 hn2
    rw [a3 k n hn1 hn2, b3 k n hn1 hn2]
    by_cases hin : n ∈ cells
    · by_cases hs : Skipped st.maps n
      · rw [treats_keeps a2 n hs, treats_keeps b2 n hs]
      · obtain ⟨_, _, t1⟩ := each n hin hs
        obtain ⟨_, _, t2⟩ := treats_each b2 hd' hm' n (hp.mem_iff.1 hin) hs
        exact congrFun (treated_unique t1 t2).1 k
    · rw [treats_frame a2 k n hin, treats_frame b2 k n (fun hh => hin (hp.mem_iff.2 hh))]
  · exfalso
    have hi' : i ∈ cells' := by rw [b2]; simp
    have hib : i ∉ bef := by
      intro hh
      rw [b2] at hd'
      exact (List.nodup_append.1 hd').2.2 i hh i (by simp) rfl
    have hs : ¬ Skipped st.maps i := fun hh => b4 ((treats_skipped b3 i).2 hh)
    obtain ⟨_, _, t1⟩ := each i (hp.mem_iff.2 hi') hs
    have hcell : cellAt m2 i = cellAt st.maps i := funext fun k => treats_frame b3 k i hib
    rw [hcell] at b5
    refine treated_not_fails t1 (fails_congr ?_ b5)
    intro d hid n hn
    refine treats_frame b3 _ _ (fun hh => hm' i hi' d hid n hn ?_)
    rw [b2]; simp [hh]

/-- **C162.** A list may be split over two calls with the same start time: the entities and
the rows are those of one call.  No condition on mixes is needed here. -/
theorem calls_may_be_split (E : Engine D) (O : Opts) (l1 l2 : List Int) (st s1 s2 : St D) (t : ℚ)
    (hO : O.start = some t) (h1 : Called l1 st) (hne : l2 ≠ [])
    (hcl : ∀ i ∈ l1 ++ l2, 0 ≤ i → Clean E st.maps i)
    (g1 : runAsCells E O l1 st = .ok s1)
    (g2 : runAsCells E O l2 { s1 with defined := true } = .ok s2) :
    ∃ s', runAsCells E O (l1 ++ l2) st = .ok s' ∧ Same s'.maps s2.maps ∧ s'.rows = s2.rows := by
  rcases run_cells_refines E O l1 st h1 (fun i hi => hcl i (by simp [hi])) with
    ⟨_, m1, r1, a1, a2, a3, a4⟩ | ⟨_, _, _, _, _, _, _, a1, _⟩
  swap
  · rw [g1] at a1; cases a1
  rw [g1] at a1
  cases a1
  rw [hO] at a2
  unfold runAsCells at g2
  rw [if_neg (by rintro (e | e); exact hne e; cases e), hO] at g2
  rcases cell_loop E O t l2 { s1 with defined := true, running := true } m1 a3
    (fun i hi h0 => clean_congr (treats_mix a2 i).symm (hcl i (by simp [hi]) h0)) with
    ⟨_, m2, r2, b1, b2, b3, b4, _⟩ | ⟨_, _, _, _, _, _, _, b1, _⟩
  swap
  · rw [show (some t).getD _ = t from rfl, b1] at g2; cases g2
  rw [show (some t).getD _ = t from rfl, b1] at g2
  simp only [Res.ok.injEq] at g2
  subst g2
  have hT := treats_append a2 b2
  rcases run_cells_refines E O (l1 ++ l2) st ⟨by simp [hne], h1.2⟩ hcl with
    ⟨s', m', r', c1, c2, c3, c4⟩ | ⟨_, bef, i, rest, m', r', rf, c1, c2, c3, c4, c5, _⟩
  · rw [hO] at c2
    obtain ⟨rfl, rfl⟩ := treats_unique hT c2
    refine ⟨s', c1, fun k n x y => (c3 k n x y).trans (b3 k n x y).symm, ?_⟩
    rw [c4]
    show _ = _
    rw [b4]
    show _ = s1.rows ++ r2
    rw [a4, List.append_assoc]
  · rw [hO] at c3 c5
    rw [c2] at hT
    exact (treats_not_fails _ _ _ _ _ _ _ _ _ hT c3 c4 c5).elim

/-- **C163.** Whether the run succeeds or not, entities at numbers that are not listed, and
at listed numbers without solution or mix, are as before; so are the prescribed
reactants (`MIX`, `REACTION`, `REACTION_TEMPERATURE`, `REACTION_PRESSURE`) of the listed
cells; and no reactant appears in a cell that had none of its kind or disappears. -/
theorem only_named_cells (E : Engine D) (O : Opts) (cells : List Int) (st st' : St D)
    (hc : Called cells st) (hcl : ∀ i ∈ cells, 0 ≤ i → Clean E st.maps i)
    (h : runAsCells E O cells st = .ok st' ∨ runAsCells E O cells st = .stop st') :
    (∀ k n, n ≠ -1 → n ≠ -2 → (n ∉ cells ∨ Skipped st.maps n) → st'.maps k n = st.maps k n) ∧
    (∀ k ∈ [Kind.mix, .reaction, .temperature, .pressure], ∀ n, n ≠ -1 → n ≠ -2 →
      st'.maps k n = st.maps k n) ∧
    (∀ k n, n ≠ -1 → n ≠ -2 → k ≠ .solution → (st'.maps k n).isSome = (st.maps k n).isSome) := by
  obtain ⟨l, m', rows, hsub, ht, hs⟩ : ∃ l m' rows, (∀ i ∈ l, i ∈ cells) ∧
      Treats E O (O.start.getD st.time) l st.maps m' rows ∧ Same st'.maps m' := by
    rcases run_cells_refines E O cells st hc hcl with
      ⟨s2, m2, r2, b1, b2, b3, _⟩ | ⟨s2, bef, i, rest, m2, r2, r2', b1, b2, b3, b4, b5, b6, _⟩
    · rcases h with h | h
      · rw [h] at b1; cases b1
        exact ⟨cells, m2, r2, fun _ => id, b2, b3⟩
      · rw [h] at b1; cases b1
    · rcases h with h | h
      · rw [h] at b1; cases b1
      · rw [h] at b1; cases b1
        exact ⟨bef, m2, r2, fun a ha => by rw [b2]; simp [ha], b3, b6⟩
  have hpre : ∀ {l m m' rows}, Treats E O (O.start.getD st.time) l m m' rows →
      ∀ k ∈ [Kind.mix, .reaction, .temperature, .pressure], ∀ n, m' k n = m k n := by
    intro l m m' rows ht
    induction ht with
    | nil m => intros; rfl
    | skip i is m m' rows _ _ ih => exact ih
    | cell i is m m' c' rows rows' sp _ ht _ ih =>
      intro k hk n
      rw [ih k hk n, withCell]
      split
      · rename_i e
        obtain ⟨_, _, _, _, _, _, _, rfl⟩ := ht
        rw [e]
        cases k <;> first | rfl | exact absurd hk (by decide)
      · rfl
  refine ⟨?_, ?_, ?_⟩
  · rintro k n h1 h2 (hn | hn)
    · rw [hs k n h1 h2]; exact treats_frame ht k n (fun hh => hn (hsub n hh))
    · rw [hs k n h1 h2]; exact treats_keeps ht n hn k
  · intro k hk n h1 h2
    rw [hs k n h1 h2]; exact hpre ht k hk n
  · intro k n h1 h2 hk
    rw [hs k n h1 h2]; exact treats_isSome ht k n hk

/-- **C164.** When the steps of a cell each start from the given cell (the default,
`INCREMENTAL_REACTIONS false`), the new content of the cell is that of the last step made
alone on the cell: the steps before leave no trace in it. -/
theorem last_step_alone (E : Engine D) (O : Opts) (sols : Int → Option D) (t0 : ℚ) (i : Int)
    (c c' : Cell D) (rows : List (Row D)) (spent : ℚ) (hO : O.incr = false)
    (h : Treated E O sols t0 i c c' rows spent) :
    ∃ n o, IsSteps E O c n ∧
      Reacts E sols t0 i n n true (spell E O c n n) 0 c (some o) ∧ c' = settle c c o := by
  obtain ⟨n, c1, next, b, o, hn, ht, rfl⟩ := h
  have hn1 := isSteps_pos hn
  cases ht with
  | each j sp r l o _ _ hr => exact ⟨_, o, hn, hr, rfl⟩
  | follow _ _ _ _ _ _ hi => rw [hO] at hi; exact absurd hi (by decide)

/-- **C164.** When only one step is made per cell, as under `RunCells` of the reaction module,
and a time step is given, the setting of `INCREMENTAL_REACTIONS` makes no difference. -/
theorem one_step_modes_agree (E : Engine D) (O O' : Opts) (sols : Int → Option D) (t0 : ℚ)
    (i : Int) (c c' : Cell D) (rows : List (Row D)) (spent t : ℚ)
    (h1 : O.oneStep = true) (hO : O' = { O with incr := !O.incr }) (ht : O.step = some t) :
    Treated E O sols t0 i c c' rows spent ↔ Treated E O' sols t0 i c c' rows spent := by
  subst hO
  have hsp : ∀ (O1 O2 : Opts) (c : Cell D), O1.step = some t → O2.step = some t →
      spell E O1 c 1 1 = spell E O2 c 1 1 := by
    intro O1 O2 c e1 e2
    unfold spell
    cases c .kinetics with
    | none => rfl
    | some d => rw [e1, e2]; cases O1.incr <;> cases O2.incr <;> simp
  have key : ∀ O1 O2 : Opts, O1.oneStep = true → O2.oneStep = true → O1.step = some t →
      O2.step = some t → O2.incr = !O1.incr →
      Treated E O1 sols t0 i c c' rows spent → Treated E O2 sols t0 i c c' rows spent := by
    rintro O1 O2 a1 a2 e1 e2 hi ⟨n, c1, next, b, o, hn, hth, rfl⟩
    have hn1 : n = 1 := by
      unfold IsSteps at hn; rw [if_pos a1] at hn; exact hn
    subst hn1
    have hn2 : IsSteps E O2 c 1 := by unfold IsSteps; rw [if_pos a2]
    cases hth with
    | each j sp r l o hinc hth0 hr =>
      cases hth0
      rw [hinc] at hi
      have h0 : Through E O2 sols t0 i 1 c 0 c 0 [] none := .none
      rw [Nat.zero_add, hsp O1 O2 c e1 e2] at hr
      have hf := Through.follow 0 c 0 [] none o hi h0 (by simpa using hr)
      simp only [zero_add, hsp O2 O1 c e2 e1] at hf
      exact ⟨1, c, absorb c o, spell E O1 c 1 1, o, hn2, hf, rfl⟩
    | follow j c2 sp r l o hinc hth0 hr =>
      cases hth0
      rw [hinc] at hi
      have h0 : Through E O2 sols t0 i 1 c 0 c 0 [] none := .none
      rw [Nat.zero_add, hsp O1 O2 c e1 e2] at hr
      have hf := Through.each 0 0 [] none o hi h0 (by simpa using hr)
      simp only [zero_add, hsp O2 O1 c e2 e1] at hf
      refine ⟨1, c, c, 0, o, hn2, ?_, rfl⟩
      simp only [zero_add]
      exact hf
  exact ⟨key O _ h1 h1 ht ht rfl, key _ O h1 h1 ht ht (by simp)⟩

/-- **C164.** Selected output gets one row for every step of every treated cell, in the order
of the cells and of their steps. -/
theorem one_row_per_step (E : Engine D) (O : Opts) (cells : List Int) (st st' : St D)
    (hc : Called cells st) (hcl : ∀ i ∈ cells, 0 ≤ i → Clean E st.maps i) (hd : cells.Nodup)
    (n : Int → Nat) (hn : ∀ i ∈ cells, (Skipped st.maps i → n i = 0) ∧
      (¬ Skipped st.maps i → IsSteps E O (cellAt st.maps i) (n i)))
    (h : runAsCells E O cells st = .ok st') :
    st'.rows.map (fun r => (r.cell, r.step)) = st.rows.map (fun r => (r.cell, r.step)) ++
      cells.flatMap fun i => (List.range' 1 (n i)).map fun s => (i, s) := by
  rcases run_cells_refines E O cells st hc hcl with ⟨s1, m', rows, h1, h2, h3, h4⟩ | ⟨st1, _, _, _, _, _, _, h1, _⟩
  swap
  · rw [h] at h1; cases h1
  rw [h] at h1
  cases h1
  rw [h4, List.map_append]
  congr 1
  have key : ∀ {l m m' rows}, Treats E O (O.start.getD st.time) l m m' rows → l.Nodup →
      (∀ i ∈ l, (Skipped m i → n i = 0) ∧ (¬ Skipped m i → IsSteps E O (cellAt m i) (n i))) →
      rows.map (fun r => (r.cell, r.step)) =
        l.flatMap fun i => (List.range' 1 (n i)).map fun s => (i, s) := by
    intro l m m' rows ht
    induction ht with
    | nil m => intros; rfl
    | skip i is m m' rows hs _ ih =>
      intro hd hn
      rw [List.nodup_cons] at hd
      rw [List.flatMap_cons, (hn i (by simp)).1 hs, ih hd.2 fun a ha => hn a (List.mem_cons_of_mem _ ha)]
      rfl
    | cell i is m m' c' rows rows' sp hs ht _ ih =>
      intro hd hn
      rw [List.nodup_cons] at hd
      rw [List.flatMap_cons, List.map_append]
      congr 1
      · obtain ⟨n1, c1, nx, b, o, hn1, hth, _⟩ := ht
        rw [through_rows hth, isSteps_unique hn1 ((hn i (by simp)).2 hs)]
      · refine ih hd.2 fun a ha => ?_
        have e : a ≠ i := fun e => hd.1 (e ▸ ha)
        have hcell : cellAt (withCell m i c') a = cellAt m a := by
          funext k
          show withCell m i c' k a = m k a
          rw [withCell, if_neg e]
        have hsk : Skipped (withCell m i c') a ↔ Skipped m a := by
          unfold Skipped withCell
          rw [if_neg e, if_neg e]
        rw [hcell, hsk]
        exact hn a (List.mem_cons_of_mem _ ha)
  exact key h2 hd hn

/-- **C165, the part that holds.** A run with a time step `t` moves the time of the instance
from the start time to `t` later, whatever the number of steps and the mode, provided that
the last of the treated cells has kinetic reactants. -/
theorem time_advances_partial (E : Engine D) (O : Opts) (before rest : List Int) (i : Int)
    (st st' : St D) (t : ℚ) (hdf : st.defined = true)
    (hcl : ∀ a ∈ before ++ i :: rest, 0 ≤ a → Clean E st.maps a)
    (hi : ¬ Skipped st.maps i) (hrest : ∀ a ∈ rest, Skipped st.maps a)
    (hk : (st.maps .kinetics i).isSome = true) (hO : O.step = some t)
    (h : runAsCells E O (before ++ i :: rest) st = .ok st') :
    st'.time = O.start.getD st.time + t := by
  unfold runAsCells at h
  rw [if_neg (by rw [hdf]; simp), cellLoop_append] at h
  rcases cell_loop E O (O.start.getD st.time) before { st with running := true } st.maps
    (fun _ _ _ _ => rfl) (fun a ha => hcl a (by simp [ha])) with
    ⟨s1, m1, r1, a1, a2, a3, _⟩ | ⟨s1, _, _, _, _, _, _, a1, _⟩
  swap
  · rw [a1] at h; cases h
  rw [a1] at h
  dsimp only at h
  have hi1 : ¬ Skipped s1.maps i := fun hh =>
    hi ((treats_skipped a2 i).1 ((skipped_congr a3 i).1 hh))
  have hnn := not_skipped_nonneg hi
  have hkind : ∀ k, k ≠ .solution → (s1.maps k i).isSome = (st.maps k i).isSome := by
    intro k hk
    rw [a3 k i (by omega) (by omega)]
    exact treats_isSome a2 k i hk
  have hcl1 : Clean E s1.maps i := by
    refine clean_congr ?_ (hcl i (by simp) hnn)
    rw [a3 .mix i (by omega) (by omega), treats_mix a2]
  rw [show i :: rest = [i] ++ rest from rfl, cellLoop_append] at h
  have hone : cellLoop E O (O.start.getD st.time) [i] s1 =
      runCell E O (O.start.getD st.time) i s1 := by
    rw [cellLoop, if_neg (by omega), if_neg (fun hh => hi1 (.inr hh))]
    cases runCell E O (O.start.getD st.time) i s1 <;> rfl
  rw [hone] at h
  rcases run_cell E O (O.start.getD st.time) i s1 hi1 hcl1 with
    ⟨s2, c', r2, sp, b1, b2, b3, _, b4, b5, _⟩ | ⟨s2, r2, b1, _⟩
  swap
  · rw [b1] at h; cases h
  rw [b1] at h
  dsimp only at h
  have hsk2 : ∀ a ∈ rest, Skipped s2.maps a := by
    intro a ha
    have e : a ≠ i := fun e => hi (e ▸ hrest a ha)
    have h1 : Skipped s1.maps a :=
      (skipped_congr a3 a).2 ((treats_skipped a2 a).2 (hrest a ha))
    refine (skipped_congr b3 a).2 ?_
    unfold Skipped withCell
    rw [if_neg e, if_neg e]
    exact h1
  rw [cellLoop_skipped E O _ rest s2 hsk2] at h
  simp only [Res.ok.injEq] at h
  subst h
  show s2.time + s2.sim = _
  rw [b4, b5, treated_time b2 hO, if_pos]
  show (s1.maps .kinetics i).isSome = true
  rw [hkind .kinetics (by decide), hk]

/-- **C166, the part that holds.** After a run that succeeds, later calculations of the same
instance that have no `RUN_CELLS` of their own do not run the cells again. -/
theorem finished_not_again (E : Engine D) (O O' : Opts) (cells : List Int) (st st' : St D)
    (hc : Called cells st) (h : runAsCells E O cells st = .ok st') :
    runAsCells E O' cells st' = .ok st' := by
  unfold runAsCells at h
  rw [if_neg (by rintro (e | e); exact hc.1 e; rw [hc.2] at e; exact absurd e (by decide))] at h
  cases hl : cellLoop E O (O.start.getD st.time) cells { st with running := true } with
  | ok s1 =>
    rw [hl] at h
    simp only [Res.ok.injEq] at h
    subst h
    unfold runAsCells
    rw [if_pos (.inr rfl)]
  | stop s1 => rw [hl] at h; cases h
  | ub => rw [hl] at h; cases h

/-- **C166, what happens instead after a failure.** The list of cells stays in force: the
instance still counts as running cells, and the next calculation will run them again. -/
theorem failed_still_defined (E : Engine D) (O : Opts) (cells : List Int) (st st' : St D)
    (hc : Called cells st) (hcl : ∀ i ∈ cells, 0 ≤ i → Clean E st.maps i)
    (h : runAsCells E O cells st = .stop st') : Called cells st' ∧ st'.running = true := by
  unfold runAsCells at h
  rw [if_neg (by rintro (e | e); exact hc.1 e; rw [hc.2] at e; exact absurd e (by decide))] at h
  rcases cell_loop E O (O.start.getD st.time) cells { st with running := true } st.maps
    (fun _ _ _ _ => rfl) hcl with
    ⟨s1, m', rows, h1, _⟩ | ⟨s1, b, i, rest, m', rows, rows', h1, _, _, _, _, _, _, h8⟩
  · rw [h1] at h; cases h
  · rw [h1] at h
    cases h
    simp only [Prod.mk.injEq] at h8
    exact ⟨⟨hc.1, h8.1.trans hc.2⟩, h8.2⟩

end Verif.CellRun
