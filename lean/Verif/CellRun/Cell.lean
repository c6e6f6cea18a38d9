import Verif.CellRun.Step

/-! # Helper lemmas: the steps of one cell -/

namespace Verif.CellRun

variable {D : Type}

/-- What stays the same while the steps of a cell are made. -/
structure Frame (m0 : Maps D) (t0 : ℚ) (u : Use) (c0 : Cell D) (flags : Bool × Bool) (st : St D) :
    Prop where
  use : st.use = u
  save : SaveTo st.save c0 (-2)
  vis : Same st.maps m0
  time : st.time = t0
  flags : (st.defined, st.running) = flags

/-- What is known when `j` steps are done. -/
structure Inv (E : Engine D) (O : Opts) (m0 : Maps D) (t0 : ℚ) (i : Int) (n : Nat) (u : Use)
    (c0 : Cell D) (flags : Bool × Bool) (rows0 : List (Row D)) (j : Nat) (st : St D)
    (c : Cell D) (spent : ℚ) (rows : List (Row D)) (l : Option (Cell D × ℚ × Output D)) :
    Prop extends Frame m0 t0 u c0 flags st where
  through : Through E O (m0 .solution) t0 i n c0 j c spent rows l
  start : st.simStart = spent
  written : st.rows = rows0 ++ rows
  last : ∀ c' sp o, l = some (c', sp, o) → st.x = some o ∧ st.sim = sp ∧
    ((c0 .kinetics).isSome = true → st.maps .kinetics (-2) = absorb c' o .kinetics)
  zero : j = 0 → st.sim = 0
  slot : j < n → (O.incr = true ∨ j = 0) → Slot st.maps c0 c (j == 0)
  same : O.incr = false → c = c0

theorem frame_copy {m0 : Maps D} {t0 : ℚ} {u : Use} {c0 : Cell D} {fl : Bool × Bool} {st : St D}
    {i : Int} (hr : Ready u c0 i) (h : Frame m0 t0 u c0 fl st) :
    Frame m0 t0 u c0 fl (copyUse st) := by
  refine ⟨h.use, ?_, ?_, h.time, h.flags⟩
  · show SaveTo (copySave st.use st.save) c0 (-2)
    rw [h.use]
    exact copySave_to _ _ _ _ hr
  · intro k n h1 h2
    show copyMaps st.maps st.use k n = _
    rw [copyMaps_same _ _ _ _ h2]
    exact h.vis k n h1 h2

theorem step_once (E : Engine D) (O : Opts) (m0 : Maps D) (t0 : ℚ) (i : Int) (n : Nat) (u : Use)
    (c0 : Cell D) (fl : Bool × Bool) (rows0 : List (Row D)) (j : Nat) (st : St D) (c : Cell D)
    (spent : ℚ) (rows : List (Row D)) (l : Option (Cell D × ℚ × Output D))
    (hr : Ready u c0 i) (hc0 : ∀ k, m0 k i = c0 k) (hi : 0 ≤ i) (hcl : Clean E m0 i)
    (h : Inv E O m0 t0 i n u c0 fl rows0 j st c spent rows l) (hj : j < n) :
    (∃ st' c' spent' rows' l', stepOnce E O i n (j + 1) st = .ok st' ∧
      Inv E O m0 t0 i n u c0 fl rows0 (j + 1) st' c' spent' rows' l' ∧ l' ≠ none) ∨
    (∃ st', stepOnce E O i n (j + 1) st = .stop st' ∧ Frame m0 t0 u c0 fl st' ∧
      st'.rows = rows0 ++ rows ∧
      Reacts E (m0 .solution) t0 i n (j + 1) (!O.incr || j == 0) (spell E O c n (j + 1)) spent c
        none) := by
  -- the state after the copy that a step of its own makes first
  obtain ⟨st1, hst1, hf1, hsl, hss, hrw⟩ : ∃ st1, (if 1 < j + 1 ∧ O.incr = false then copyUse st
      else st) = st1 ∧ Frame m0 t0 u c0 fl st1 ∧ Slot st1.maps c0 c (!O.incr || j + 1 == 1) ∧
      st1.simStart = spent ∧ st1.rows = rows0 ++ rows := by
    refine ⟨_, rfl, ?_⟩
    by_cases hc : 1 < j + 1 ∧ O.incr = false
    · rw [if_pos hc]
      refine ⟨frame_copy hr h.toFrame, ?_, h.start, h.written⟩
      rw [hc.2, h.same hc.2]
      show Slot (copyMaps st.maps st.use) c0 c0 true
      rw [h.use]
      exact copyMaps_slot _ _ _ _ hr
        (fun k => (h.vis k i (by omega) (by omega)).trans (hc0 k))
    · rw [if_neg hc]
      refine ⟨h.toFrame, ?_, h.start, h.written⟩
      have hor : O.incr = true ∨ j = 0 := by
        by_cases hj0 : j = 0
        · exact .inr hj0
        · cases hi' : O.incr with
          | true => exact .inl rfl
          | false => exact absurd ⟨by omega, hi'⟩ hc
      have := h.slot hj hor
      have hb : (j == 0) = (!O.incr || j + 1 == 1) := by
        rcases hor with e | e
        · rw [e]; simp
        · subst e; simp
      rw [← hb]
      exact this
  have hkin := kinTime_eq E O st1.maps u n (j + 1) c0 c i _ hr hsl
  have hsolv : ∀ d, c0 .mix = some d → ∀ a ∈ E.named d, st1.maps .solution a = m0 .solution a := by
    intro d hd a ha
    obtain ⟨h1, h2⟩ := hcl d ((hc0 .mix).trans hd) a ha
    exact hf1.vis _ _ h1 h2
  obtain ⟨w, hw, hset⟩ := setReaction_eq E st1.maps u c0 c i _ (m0 .solution) hr hsl hsolv
  have hcell : (if st1.use.inn .mix then st1.use.num .mix else st1.use.num .solution) = i := by
    rw [hf1.use]
    cases hm : u.inn .mix with
    | true =>
      rw [if_pos rfl]
      exact hr.num _ (.inr (by rw [← hr.inn .mix (by decide), hm]))
    | false =>
      rw [if_neg (by decide)]
      exact hr.num _ (.inl rfl)
  have hb1 : (!O.incr || j + 1 == 1) = (!O.incr || j == 0) := by simp
  unfold stepOnce
  rw [hst1]
  dsimp only
  rw [hcell, hf1.use, hkin]
  dsimp only
  rw [hset]
  dsimp only
  cases hre : E.react ⟨w, reactants c, i, j + 1, n, spell E O c n (j + 1), st1.time,
      st1.simStart⟩ with
  | none =>
    right
    refine ⟨st1, rfl, hf1, hrw, w, ?_, ?_⟩
    · rw [← hb1]; exact hw
    · rw [← hf1.time, ← hss]; exact hre
  | some o =>
    left
    dsimp only
    have hrx : Reacts E (m0 .solution) t0 i n (j + 1) (!O.incr || j == 0) (spell E O c n (j + 1))
        spent c (some o) := by
      refine ⟨w, ?_, ?_⟩
      · rw [← hb1]; exact hw
      · rw [← hf1.time, ← hss]; exact hre
    -- the state after the step
    refine ⟨_, if O.incr then absorb c o else c0,
      if O.incr then spent + spell E O c n (j + 1) else 0,
      rows ++ [⟨i, j + 1, o⟩],
      some (c, if O.incr then spent + spell E O c n (j + 1) else spell E O c n (j + 1), o),
      rfl, ?_, by simp⟩
    -- the slots before the results are saved
    have hvis : Same (scratch st1.maps o) m0 := by
      intro k a h1 h2
      rw [scratch_same _ _ _ _ h1 h2]
      exact hf1.vis k a h1 h2
    have hkinx : (c0 .kinetics).isSome = true → scratch st1.maps o .kinetics (-2) =
        absorb c o .kinetics := by
      intro h0
      have hp := hsl.part .kinetics (by decide) (by decide) h0
      have hc : (c .kinetics).isSome = true := by
        rw [hsl.some .kinetics (by decide) (by decide), h0]
      obtain ⟨d, hd⟩ := Option.isSome_iff_exists.1 hc
      rw [scratch_two, hp, hd]
      simp only [absorb, hd]
      cases o.slot2 .kinetics <;> rfl
    have hthr : Through E O (m0 .solution) t0 i n c0 (j + 1) (if O.incr then absorb c o else c0)
        (if O.incr then spent + spell E O c n (j + 1) else 0) (rows ++ [⟨i, j + 1, o⟩])
        (some (c, if O.incr then spent + spell E O c n (j + 1) else spell E O c n (j + 1), o)) := by
      cases hin : O.incr with
      | true =>
        rw [hin] at hrx
        exact .follow j c spent rows l o hin h.through (by simpa using hrx)
      | false =>
        rw [hin] at hrx
        have hcc := h.same hin
        subst hcc
        have h0 : spent = 0 := by
          have := h.through
          cases this with
          | none => rfl
          | each => rfl
          | follow _ _ _ _ _ _ hh => rw [hin] at hh; exact absurd hh (by decide)
        subst h0
        exact .each j 0 rows l o hin h.through (by simpa using hrx)
    by_cases hlast : j + 1 < n
    · rw [if_pos hlast]
      refine { use := rfl, save := hf1.save, vis := ?_, time := hf1.time, flags := hf1.flags,
               through := hthr, start := ?_, written := ?_, last := ?_, zero := by simp,
               slot := ?_, same := ?_ }
      · intro k a h1 h2
        show saver (scratch st1.maps o) u st1.save o k a = _
        rw [save_same _ _ _ _ c0 _ hf1.save k a h2]
        exact hvis k a h1 h2
      · show (if O.incr then st1.simStart + _ else st1.simStart) = _
        rw [hss]
        cases hin : O.incr with
        | true => rfl
        | false =>
          have := h.through
          cases this with
          | none => rfl
          | each => rfl
          | follow _ _ _ _ _ _ hh => rw [hin] at hh; exact absurd hh (by decide)
      · show st1.rows ++ _ = _
        rw [hrw, List.append_assoc]
      · intro c' sp o' he
        simp only [Option.some.injEq, Prod.mk.injEq] at he
        obtain ⟨rfl, rfl, rfl⟩ := he
        refine ⟨rfl, ?_, ?_⟩
        · show (if O.incr then st1.simStart + _ else _) = _
          rw [hss]
        · intro h0
          show saver (scratch st1.maps o) u st1.save o .kinetics (-2) = _
          rw [save_kinetics _ _ _ _ c0 hf1.save]
          exact hkinx h0
      · intro _ hor
        have hin : O.incr = true := by
          rcases hor with e | e
          · exact e
          · omega
        rw [hin]
        show Slot (saver (scratch st1.maps o) u st1.save o) c0 (absorb c o) (j + 1 == 0)
        rw [show (j + 1 == 0) = false by simp]
        exact save_slot _ _ _ _ _ _ _ _ hr hf1.save hsl
      · intro hin; rw [hin]; rfl
    · rw [if_neg hlast]
      refine { use := rfl, save := hf1.save, vis := hvis, time := hf1.time,
               flags := hf1.flags, through := hthr, start := ?_, written := ?_, last := ?_,
               zero := by simp, slot := fun hh => absurd hh hlast, same := ?_ }
      · show (if O.incr then st1.simStart + _ else st1.simStart) = _
        rw [hss]
        cases hin : O.incr with
        | true => rfl
        | false =>
          have := h.through
          cases this with
          | none => rfl
          | each => rfl
          | follow _ _ _ _ _ _ hh => rw [hin] at hh; exact absurd hh (by decide)
      · show st1.rows ++ _ = _
        rw [hrw, List.append_assoc]
      · intro c' sp o' he
        simp only [Option.some.injEq, Prod.mk.injEq] at he
        obtain ⟨rfl, rfl, rfl⟩ := he
        refine ⟨rfl, ?_, hkinx⟩
        show (if O.incr then st1.simStart + _ else _) = _
        rw [hss]
      · intro hin; rw [hin]; rfl

/-- The steps `j + 1` to `n`. -/
theorem step_loop (E : Engine D) (O : Opts) (m0 : Maps D) (t0 : ℚ) (i : Int) (n : Nat) (u : Use)
    (c0 : Cell D) (fl : Bool × Bool) (rows0 : List (Row D))
    (hr : Ready u c0 i) (hc0 : ∀ k, m0 k i = c0 k) (hi : 0 ≤ i) (hcl : Clean E m0 i) :
    ∀ (a j : Nat) (st : St D) (c : Cell D) (spent : ℚ) (rows : List (Row D))
      (l : Option (Cell D × ℚ × Output D)), j + a = n → (j = 0 ∨ l ≠ none) →
      Inv E O m0 t0 i n u c0 fl rows0 j st c spent rows l →
      (∃ st' c' spent' rows' l', stepLoop E O i n ((List.range' (j + 1) a)) st = .ok st' ∧
        Inv E O m0 t0 i n u c0 fl rows0 n st' c' spent' rows' l' ∧ (n = 0 ∨ l' ≠ none)) ∨
      (∃ st' j' c' spent' rows' l', stepLoop E O i n ((List.range' (j + 1) a)) st = .stop st' ∧
        j' < n ∧ Frame m0 t0 u c0 fl st' ∧ st'.rows = rows0 ++ rows' ∧
        Through E O (m0 .solution) t0 i n c0 j' c' spent' rows' l' ∧
        Reacts E (m0 .solution) t0 i n (j' + 1) (!O.incr || j' == 0) (spell E O c' n (j' + 1))
          spent' c' none)
  | 0, j, st, c, spent, rows, l, ha, hl, h => by
    left
    have : j = n := by omega
    subst this
    exact ⟨st, c, spent, rows, l, rfl, h, hl⟩
  | a + 1, j, st, c, spent, rows, l, ha, _, h => by
    rw [List.range'_succ]
    unfold stepLoop
    rcases step_once E O m0 t0 i n u c0 fl rows0 j st c spent rows l hr hc0 hi hcl h (by omega)
      with ⟨st', c', spent', rows', l', he, hinv, hl'⟩ | ⟨st', he, hf, hrw, hre⟩
    · rw [he]
      exact step_loop E O m0 t0 i n u c0 fl rows0 hr hc0 hi hcl a (j + 1) st' c' spent' rows' l'
        (by omega) (.inr hl') hinv
    · rw [he]
      right
      exact ⟨st', j, c, spent, rows, l, rfl, by omega, hf, hrw, h.through, hre⟩

theorem countSteps_is (E : Engine D) (O : Opts) (m : Maps D) (u : Use) (c : Cell D) (i : Int)
    (hr : Ready u c i) (hm : ∀ k, m k i = c k) : IsSteps E O c (countSteps E O m u) := by
  unfold IsSteps countSteps
  cases O.oneStep with
  | true => rfl
  | false =>
    rw [if_neg (by decide), if_neg (by decide)]
    have key : ∀ (L : List Kind) (b : Nat), 1 ≤ b → (∀ k ∈ L, k ≠ .solution) →
        b ≤ L.foldl (atLeast E m u) b ∧
        (∀ k ∈ L, ∀ d, c k = some d → E.count k d ≤ L.foldl (atLeast E m u) b) ∧
        (L.foldl (atLeast E m u) b = b ∨ ∃ k ∈ L, ∃ d, c k = some d ∧
          L.foldl (atLeast E m u) b = E.count k d) := by
      intro L
      induction L with
      | nil => intro b _ _; exact ⟨le_refl _, by simp, .inl rfl⟩
      | cons k L ih =>
        intro b hb hk
        have hks := hk k (by simp)
        have ha : b ≤ atLeast E m u b k ∧ (∀ d, c k = some d → E.count k d ≤ atLeast E m u b k) ∧
            (atLeast E m u b k = b ∨ ∃ d, c k = some d ∧ atLeast E m u b k = E.count k d) := by
          unfold atLeast
          rw [hr.inn k hks]
          cases hck : c k with
          | none => simp
          | some d =>
            rw [if_pos (show (some d).isSome = true from rfl), hr.num k (.inr (by rw [hck]; rfl)),
              hm, hck]
            dsimp only
            split
            · refine ⟨by omega, ?_, .inr ⟨d, rfl, rfl⟩⟩
              rintro _ ⟨⟩; exact le_refl _
            · refine ⟨le_refl _, ?_, .inl rfl⟩
              rintro _ ⟨⟩; omega
        obtain ⟨i1, i2, i3⟩ := ih (atLeast E m u b k) (le_trans hb ha.1)
          (fun k' hk' => hk k' (List.mem_cons_of_mem _ hk'))
        rw [List.foldl_cons]
        refine ⟨le_trans ha.1 i1, ?_, ?_⟩
        · intro k' hk' d hd
          rcases List.mem_cons.1 hk' with rfl | hk'
          · exact le_trans (ha.2.1 d hd) i1
          · exact i2 k' hk' d hd
        · rcases i3 with e | ⟨k', hk', d, hd, e⟩
          · rcases ha.2.2 with e' | ⟨d, hd, e'⟩
            · exact .inl (e.trans e')
            · exact .inr ⟨k, by simp, d, hd, e.trans e'⟩
          · exact .inr ⟨k', List.mem_cons_of_mem _ hk', d, hd, e⟩
    obtain ⟨h1, h2, h3⟩ := key [Kind.reaction, .kinetics, .temperature, .pressure] 1 (le_refl _)
      (by decide)
    exact ⟨h1, h2, h3⟩

theorem isSteps_pos {E : Engine D} {O : Opts} {c : Cell D} {n : Nat} (h : IsSteps E O c n) :
    1 ≤ n := by
  unfold IsSteps at h
  split at h
  · omega
  · exact h.1

/-- One cell. -/
theorem run_cell (E : Engine D) (O : Opts) (t0 : ℚ) (i : Int) (st : St D) (hs : ¬ Skipped st.maps i)
    (hcl : Clean E st.maps i) :
    (∃ st' c' rows spent, runCell E O t0 i st = .ok st' ∧
      Treated E O (st.maps .solution) t0 i (cellAt st.maps i) c' rows spent ∧
      Same st'.maps (withCell st.maps i c') ∧ st'.rows = st.rows ++ rows ∧ st'.time = t0 ∧
      st'.sim = spent ∧ (st'.defined, st'.running) = (st.defined, st.running)) ∨
    (∃ st' rows, runCell E O t0 i st = .stop st' ∧
      Fails E O (st.maps .solution) t0 i (cellAt st.maps i) rows ∧
      Same st'.maps st.maps ∧ st'.rows = st.rows ++ rows ∧ st'.time = t0 ∧
      (st'.defined, st'.running) = (st.defined, st.running)) := by
  have hi : 0 ≤ i := by
    unfold Skipped at hs
    by_contra hh
    exact hs (.inl (by omega))
  obtain ⟨u, v, hset, hr, hv⟩ := setAdvection_ready st.maps st.use st.save i hs
  set c0 := cellAt st.maps i with hc0def
  have hc0 : ∀ k, st.maps k i = c0 k := fun k => rfl
  have hn := countSteps_is E O st.maps u c0 i hr hc0
  set n := countSteps E O st.maps u with hndef
  have hn1 := isSteps_pos hn
  have hsl := copyMaps_slot st.maps u c0 i hr hc0
  -- the state before the first step
  let st1 : St D := { copyUse { st with time := t0, use := u, save := v } with simStart := 0, sim := 0 }
  have hinv : Inv E O st.maps t0 i n u c0 (st.defined, st.running) st.rows 0 st1 c0 0 [] none := by
    refine { use := rfl, save := copySave_to _ _ _ _ hr, vis := ?_, time := rfl, flags := rfl,
             through := .none, start := rfl, written := (List.append_nil _).symm,
             last := by simp, zero := fun _ => rfl, slot := fun _ _ => hsl, same := fun _ => rfl }
    intro k a h1 h2
    exact copyMaps_same _ _ _ _ h2
  have hrange : (List.range n).map (· + 1) = List.range' (0 + 1) n := by
    rw [List.range_eq_range', List.range'_eq_map_range, List.range'_eq_map_range, List.map_map]
    refine List.map_congr_left fun a _ => ?_
    simp [Nat.add_comm]
  unfold runCell
  rw [hset]
  dsimp only
  rw [← hndef, hrange]
  rcases step_loop E O st.maps t0 i n u c0 _ st.rows hr hc0 hi hcl n 0 st1 c0 0 [] none
    (by omega) (.inl rfl) hinv with
    ⟨st2, c, next, rows, l, he, hf, hl⟩ | ⟨st2, j, c, spent, rows, l, he, hj, hf, hrw, hth, hre⟩
  · left
    have hl : l ≠ none := hl.resolve_left (by omega)
    obtain ⟨⟨c', sp, o⟩, rfl⟩ := Option.ne_none_iff_exists'.1 hl
    obtain ⟨hx, hsim, hk⟩ := hf.last c' sp o rfl
    have he' : stepLoop E O i n (List.range' (0 + 1) n)
        { copyUse { st with time := t0, use := u, save := v } with simStart := 0, sim := 0 }
        = .ok st2 := he
    rw [he']
    dsimp only
    rw [hx]
    dsimp only
    refine ⟨_, settle c0 c' o, rows, sp, rfl, ⟨n, c', c, next, o, hn, hf.through, rfl⟩, ?_,
      hf.written, hf.time, hsim, hf.flags⟩
    intro k a h1 h2
    show saver _ st2.use v o k a = _
    rw [hf.use]
    by_cases hai : a = i
    · subst hai
      rw [withCell, if_pos rfl, saver_apply _ _ _ _ _ _ hv.ends]
      have hvis : ∀ k, st2.maps k a = c0 k := fun k => (hf.vis k a h1 h2).trans (hc0 k)
      have hm : ∀ k', k' ≠ .kinetics →
          (if u.inn .kinetics = true then rxnCopy st2.maps .kinetics (-2) (u.num .kinetics)
            else st2.maps) k' a = c0 k' := by
        intro k' hk'
        split
        · rw [rxnCopy_apply, if_neg (fun hh => hk' hh.1), hvis]
        · exact hvis k'
      -- the cell is known well enough from the last step
      have hc'some : ∀ k', k' ≠ .solution → k' ≠ .mix → (c' k').isSome = (c0 k').isSome := by
        have hsome : ∀ (j : Nat) (c1 : Cell D) (sp1 : ℚ) (rows1 : List (Row D)) l1,
            Through E O (st.maps .solution) t0 a n c0 j c1 sp1 rows1 l1 →
            (∀ k', k' ≠ .solution → k' ≠ .mix → (c1 k').isSome = (c0 k').isSome) ∧
            ∀ c2 sp2 o2, l1 = some (c2, sp2, o2) →
              ∀ k', k' ≠ .solution → k' ≠ .mix → (c2 k').isSome = (c0 k').isSome := by
          intro j c1 sp1 rows1 l1 ht
          induction ht with
          | none => exact ⟨fun _ _ _ => rfl, by simp⟩
          | each j sp r l o _ _ _ ih =>
            refine ⟨fun _ _ _ => rfl, ?_⟩
            rintro c2 sp2 o2 ⟨⟩ k' _ _
            rfl
          | follow j c1 sp r l o _ _ _ ih =>
            refine ⟨?_, ?_⟩
            · intro k' h1 h2
              rw [← ih.1 k' h1 h2]
              cases k' <;> simp_all [absorb]
            · rintro c2 sp2 o2 ⟨⟩
              exact ih.1
        exact (hsome _ _ _ _ _ hf.through).2 c' sp o rfl
      by_cases hk0 : k = .solution
      · subst hk0
        rw [if_pos ⟨hv.sol, (hv.num .solution (by decide) hv.sol).symm⟩]
        rfl
      · have hon := hv.on k
        have hnum := hv.num k
        have hinn := hr.inn k hk0
        by_cases hkk : k = .kinetics
        · subst hkk
          cases h0 : (c0 .kinetics).isSome with
          | true =>
            have hv1 : v.on .kinetics = true := by rw [hon (by decide) hk0, h0]
            have hnumk := hr.num .kinetics (.inr h0)
            rw [if_pos ⟨hv1, (hnum (by decide) hv1).symm⟩]
            rw [h0] at hinn
            have hkv := hk h0
            have hcs : (c' .kinetics).isSome = true := by
              rw [hc'some _ (by decide) (by decide), h0]
            obtain ⟨d, hd⟩ := Option.isSome_iff_exists.1 hcs
            simp only [hinn, if_true, rxnCopy_apply, hnumk, and_self, true_and]
            rw [if_neg (fun hh : (-2 : Int) = a => h2 hh.symm), hkv]
            simp only [settle, absorb, hd]
            rfl
          | false =>
            have hcn : c0 .kinetics = none := by simpa using h0
            have hv1 : v.on .kinetics = false := by rw [hon (by decide) hk0, h0]
            rw [h0] at hinn
            rw [if_neg (fun hh => by rw [hv1] at hh; exact absurd hh.1 (by decide)), hinn,
              if_neg (by decide), hvis, hcn]
            have := hc'some .kinetics (by decide) (by decide)
            rw [h0] at this
            have hcn' : c' .kinetics = none := by simpa using this
            simp [settle, absorb, hcn']
        · rw [hm k hkk]
          by_cases hks : k.saved = true
          · have hk2 : k ≠ .mix := by rintro rfl; exact absurd hks (by decide)
            have hkept : k.kept = true := by simp [Kind.kept, hks]
            have hcs := hc'some k hk0 hk2
            cases h0 : (c0 k).isSome with
            | true =>
              have hv1 : v.on k = true := by rw [hon hkept hk0, h0]
              rw [if_pos ⟨hv1, (hnum hkept hv1).symm⟩]
              rw [h0] at hinn hcs
              obtain ⟨d, hd⟩ := Option.isSome_iff_exists.1 hcs
              cases k <;> simp_all [settle, absorb, Kind.saved]
            | false =>
              have hv1 : v.on k = false := by rw [hon hkept hk0, h0]
              rw [if_neg (fun hh => by rw [hv1] at hh; exact absurd hh.1 (by decide))]
              rw [h0] at hcs
              have e1 : c0 k = none := by simpa using h0
              have e2 : c' k = none := by simpa using hcs
              rw [e1]
              cases k <;> simp_all [settle, absorb, Kind.saved]
          · have hset : settle c0 c' o k = c0 k := by
              cases k <;> simp_all [settle, Kind.saved]
            rw [hset]
            split
            · clear hm hset hon hnum hinn
              cases k <;> first | rfl | exact absurd rfl hk0 | exact absurd rfl hkk |
                exact absurd rfl hks
            · rfl
    · rw [save_same _ _ _ _ c0 i hv k a hai, withCell, if_neg hai]
      split
      · rename_i hin
        rw [rxnCopy_apply, if_neg]
        · exact hf.vis k a h1 h2
        · rintro ⟨_, e⟩
          refine hai (e.trans (hr.num .kinetics (.inr ?_)))
          rw [← hr.inn .kinetics (by decide)]
          exact hin
      · exact hf.vis k a h1 h2
  · right
    have he' : stepLoop E O i n (List.range' (0 + 1) n)
        { copyUse { st with time := t0, use := u, save := v } with simStart := 0, sim := 0 }
        = .stop st2 := he
    rw [he']
    exact ⟨st2, rows, rfl, ⟨n, j, c, spent, l, hj, hn, hth, hre⟩, hf.vis, hrw, hf.time, hf.flags⟩

end Verif.CellRun
