import Verif.CellRun.Cell
import Mathlib.Tactic.Ring
import Mathlib.Tactic.NormNum

/-! # Helper lemmas: lists of cells, and that the outcome is determined -/

namespace Verif.CellRun

variable {D : Type}

/-- Two families of solutions that agree where a mix of the cell looks. -/
def Agree (E : Engine D) (c : Cell D) (s1 s2 : Int → Option D) : Prop :=
  ∀ d, c .mix = some d → ∀ n ∈ E.named d, s1 n = s2 n

theorem water_congr {E : Engine D} {c : Cell D} {s1 s2 : Int → Option D} {f : Bool} {w : Source D}
    (h : Agree E c s1 s2) (hw : Water E s1 c f w) : Water E s2 c f w := by
  cases hw with
  | mix d hf hd =>
    rw [List.map_congr_left (h d hd)]
    exact .mix d hf hd
  | solution d hf hd => exact .solution d hf hd

theorem reacts_congr {E : Engine D} {c : Cell D} {s1 s2 : Int → Option D} {t0 : ℚ} {i : Int}
    {n s : Nat} {f : Bool} {kt b : ℚ} {r : Option (Output D)} (h : Agree E c s1 s2)
    (hr : Reacts E s1 t0 i n s f kt b c r) : Reacts E s2 t0 i n s f kt b c r := by
  obtain ⟨w, hw, he⟩ := hr
  exact ⟨w, water_congr h hw, he⟩

theorem through_mix {E : Engine D} {O : Opts} {sols : Int → Option D} {t0 : ℚ} {i : Int} {n : Nat}
    {c0 : Cell D} {j : Nat} {c : Cell D} {sp : ℚ} {rows : List (Row D)}
    {l : Option (Cell D × ℚ × Output D)} (h : Through E O sols t0 i n c0 j c sp rows l) :
    c .mix = c0 .mix := by
  induction h with
  | none => rfl
  | each => rfl
  | follow j c sp rows l o _ _ _ ih => exact ih

theorem through_congr {E : Engine D} {O : Opts} {s1 s2 : Int → Option D} {t0 : ℚ} {i : Int}
    {n : Nat} {c0 : Cell D} {j : Nat} {c : Cell D} {sp : ℚ} {rows : List (Row D)}
    {l : Option (Cell D × ℚ × Output D)} (h : Agree E c0 s1 s2)
    (ht : Through E O s1 t0 i n c0 j c sp rows l) : Through E O s2 t0 i n c0 j c sp rows l := by
  induction ht with
  | none => exact .none
  | each j sp rows l o hi _ hr ih => exact .each j sp rows l o hi ih (reacts_congr h hr)
  | follow j c sp rows l o hi ht' hr ih =>
    refine .follow j c sp rows l o hi ih (reacts_congr ?_ hr)
    intro d hd
    exact h d (by rw [← through_mix ht', hd])

theorem treated_congr {E : Engine D} {O : Opts} {s1 s2 : Int → Option D} {t0 : ℚ} {i : Int}
    {c0 c' : Cell D} {rows : List (Row D)} {sp : ℚ} (h : Agree E c0 s1 s2)
    (ht : Treated E O s1 t0 i c0 c' rows sp) : Treated E O s2 t0 i c0 c' rows sp := by
  obtain ⟨n, c, next, b, o, hn, hth, he⟩ := ht
  exact ⟨n, c, next, b, o, hn, through_congr h hth, he⟩

theorem fails_congr {E : Engine D} {O : Opts} {s1 s2 : Int → Option D} {t0 : ℚ} {i : Int}
    {c0 : Cell D} {rows : List (Row D)} (h : Agree E c0 s1 s2)
    (ht : Fails E O s1 t0 i c0 rows) : Fails E O s2 t0 i c0 rows := by
  obtain ⟨n, j, c, sp, l, hj, hn, hth, hr⟩ := ht
  refine ⟨n, j, c, sp, l, hj, hn, through_congr h hth, reacts_congr ?_ hr⟩
  intro d hd
  exact h d (by rw [← through_mix hth, hd])

theorem skipped_congr {m m' : Maps D} (h : Same m m') (i : Int) : Skipped m i ↔ Skipped m' i := by
  by_cases hi : i < 0
  · simp [Skipped, hi]
  · unfold Skipped
    rw [h .solution i (by omega) (by omega), h .mix i (by omega) (by omega)]

theorem cellAt_congr {m m' : Maps D} (h : Same m m') {i : Int} (hi : 0 ≤ i) :
    cellAt m i = cellAt m' i := by
  funext k
  exact h k i (by omega) (by omega)

theorem not_skipped_nonneg {m : Maps D} {i : Int} (h : ¬ Skipped m i) : 0 ≤ i := by
  by_contra hh
  exact h (.inl (by omega))

theorem treated_mix {E : Engine D} {O : Opts} {s1 : Int → Option D} {t0 : ℚ} {i : Int}
    {c0 c' : Cell D} {rows : List (Row D)} {sp : ℚ}
    (ht : Treated E O s1 t0 i c0 c' rows sp) : c' .mix = c0 .mix := by
  obtain ⟨n, c, next, b, o, hn, hth, rfl⟩ := ht
  rfl

theorem treated_solution {E : Engine D} {O : Opts} {s1 : Int → Option D} {t0 : ℚ} {i : Int}
    {c0 c' : Cell D} {rows : List (Row D)} {sp : ℚ}
    (ht : Treated E O s1 t0 i c0 c' rows sp) : c' .solution ≠ none := by
  obtain ⟨n, c, next, b, o, hn, hth, rfl⟩ := ht
  simp [settle, absorb]

theorem withCell_mix {E : Engine D} {O : Opts} {s1 : Int → Option D} {t0 : ℚ} {i : Int}
    {m : Maps D} {c' : Cell D} {rows : List (Row D)} {sp : ℚ}
    (ht : Treated E O s1 t0 i (cellAt m i) c' rows sp) (n : Int) :
    withCell m i c' .mix n = m .mix n := by
  unfold withCell
  split
  · rename_i h; rw [treated_mix ht, h]; rfl
  · rfl

theorem clean_congr {E : Engine D} {m m' : Maps D} {i : Int} (h : m .mix i = m' .mix i)
    (hc : Clean E m i) : Clean E m' i := by
  intro d hd
  exact hc d (h.trans hd)

theorem agree_same {E : Engine D} {m m' : Maps D} {i : Int} (h : Same m m')
    (hc : Clean E m i) : Agree E (cellAt m i) (m .solution) (m' .solution) := by
  intro d hd n hn
  obtain ⟨h1, h2⟩ := hc d hd n hn
  exact h _ _ h1 h2

/-- The loop over the cells. -/
theorem cell_loop (E : Engine D) (O : Opts) (t0 : ℚ) : ∀ (cells : List Int) (st : St D) (m : Maps D),
    Same st.maps m → (∀ i ∈ cells, 0 ≤ i → Clean E m i) →
    (∃ st' m' rows, cellLoop E O t0 cells st = .ok st' ∧ Treats E O t0 cells m m' rows ∧
      Same st'.maps m' ∧ st'.rows = st.rows ++ rows ∧
      (st'.defined, st'.running) = (st.defined, st.running)) ∨
    (∃ st' before i rest m' rows rows', cellLoop E O t0 cells st = .stop st' ∧
      cells = before ++ i :: rest ∧ Treats E O t0 before m m' rows ∧ ¬ Skipped m' i ∧
      Fails E O (m' .solution) t0 i (cellAt m' i) rows' ∧ Same st'.maps m' ∧
      st'.rows = st.rows ++ rows ++ rows' ∧
      (st'.defined, st'.running) = (st.defined, st.running))
  | [], st, m, hs, _ => .inl ⟨st, m, [], rfl, .nil m, hs, by simp, rfl⟩
  | i :: cells, st, m, hs, hcl => by
    have hcl' : ∀ i ∈ cells, 0 ≤ i → Clean E m i := fun a ha => hcl a (List.mem_cons_of_mem _ ha)
    by_cases hsk : Skipped st.maps i
    · have he : cellLoop E O t0 (i :: cells) st = cellLoop E O t0 cells st := by
        rw [cellLoop]
        rcases hsk with h | h
        · rw [if_pos h]
        · by_cases hi : i < 0
          · rw [if_pos hi]
          · rw [if_neg hi, if_pos h]
      have hsk' := (skipped_congr hs i).1 hsk
      rw [he]
      rcases cell_loop E O t0 cells st m hs hcl' with
        ⟨st', m', rows, h1, h2, h3⟩ | ⟨st', b, a, rest, m', rows, rows', h1, h2, h3, h4⟩
      · exact .inl ⟨st', m', rows, h1, .skip i cells m m' rows hsk' h2, h3⟩
      · exact .inr ⟨st', i :: b, a, rest, m', rows, rows', h1, by rw [h2]; rfl,
          .skip i b m m' rows hsk' h3, h4⟩
    · have hi := not_skipped_nonneg hsk
      have hsk' : ¬ Skipped m i := fun h => hsk ((skipped_congr hs i).2 h)
      have hcm := hcl i (by simp) hi
      have hcs : Clean E st.maps i :=
        clean_congr (hs .mix i (by omega) (by omega)).symm hcm
      have hcell := cellAt_congr hs hi
      have hag : Agree E (cellAt st.maps i) (st.maps .solution) (m .solution) := agree_same hs hcs
      have he : cellLoop E O t0 (i :: cells) st = match runCell E O t0 i st with
          | .ok st' => cellLoop E O t0 cells st'
          | r => r := by
        rw [cellLoop, if_neg (by omega), if_neg (fun h => hsk (.inr h))]
        cases runCell E O t0 i st <;> rfl
      rw [he]
      rcases run_cell E O t0 i st hsk hcs with
        ⟨st1, c', rows, sp, h1, h2, h3, h4, h5, h6, h7⟩ | ⟨st1, rows, h1, h2, h3, h4, h5, h6⟩
      · rw [h1]
        dsimp only
        have ht := treated_congr hag h2
        rw [hcell] at ht
        have hs1 : Same st1.maps (withCell m i c') := by
          intro k n hn1 hn2
          rw [h3 k n hn1 hn2]
          unfold withCell
          split
          · rfl
          · exact hs k n hn1 hn2
        have hcl1 : ∀ a ∈ cells, 0 ≤ a → Clean E (withCell m i c') a := by
          intro a ha h0
          exact clean_congr (withCell_mix ht a).symm (hcl' a ha h0)
        rcases cell_loop E O t0 cells st1 (withCell m i c') hs1 hcl1 with
          ⟨st', m', rows', g1, g2, g3, g4, g5⟩ |
          ⟨st', b, a, rest, m', rows', rows'', g1, g2, g3, g4, g5, g6, g7, g8⟩
        · exact .inl ⟨st', m', rows ++ rows', g1, .cell i cells m m' c' rows rows' sp hsk' ht g2,
            g3, by rw [g4, h4, List.append_assoc], g5.trans h7⟩
        · exact .inr ⟨st', i :: b, a, rest, m', rows ++ rows', rows'', g1, by rw [g2]; rfl,
            .cell i b m m' c' rows rows' sp hsk' ht g3, g4, g5, g6,
            by rw [g7, h4]; simp only [List.append_assoc], g8.trans h7⟩
      · rw [h1]
        refine .inr ⟨st1, [], i, cells, m, [], rows, rfl, rfl, .nil m, hsk', ?_, ?_, ?_, h6⟩
        · have := fails_congr hag h2
          rw [hcell] at this
          exact this
        · intro k n hn1 hn2
          rw [h3 k n hn1 hn2]
          exact hs k n hn1 hn2
        · rw [h4]; simp

/-! ### The outcome of a cell is determined -/

theorem water_unique {E : Engine D} {s : Int → Option D} {c : Cell D} {f : Bool} {w w' : Source D}
    (h : Water E s c f w) (h' : Water E s c f w') : w = w' := by
  cases h with
  | mix d hf hd =>
    cases h' with
    | mix d' _ hd' => rw [hd] at hd'; cases hd'; rfl
    | solution d' hor _ =>
      rcases hor with e | e
      · rw [hf] at e; exact absurd e (by decide)
      · rw [hd] at e; exact absurd e (by simp)
  | solution d hor hd =>
    cases h' with
    | mix d' hf hd' =>
      rcases hor with e | e
      · rw [hf] at e; exact absurd e (by decide)
      · rw [hd'] at e; exact absurd e (by simp)
    | solution d' _ hd' => rw [hd] at hd'; cases hd'; rfl

theorem reacts_unique {E : Engine D} {s : Int → Option D} {t0 : ℚ} {i : Int} {n j : Nat} {f : Bool}
    {kt b : ℚ} {c : Cell D} {r r' : Option (Output D)} (h : Reacts E s t0 i n j f kt b c r)
    (h' : Reacts E s t0 i n j f kt b c r') : r = r' := by
  obtain ⟨w, hw, he⟩ := h
  obtain ⟨w', hw', he'⟩ := h'
  rw [water_unique hw hw'] at he
  exact he.symm.trans he'

theorem isSteps_unique {E : Engine D} {O : Opts} {c : Cell D} {n n' : Nat} (h : IsSteps E O c n)
    (h' : IsSteps E O c n') : n = n' := by
  unfold IsSteps at h h'
  split at h
  · rename_i ho; rw [if_pos ho] at h'; omega
  · rename_i ho
    rw [if_neg ho] at h'
    obtain ⟨h1, h2, h3⟩ := h
    obtain ⟨g1, g2, g3⟩ := h'
    have l1 : n ≤ n' := by
      rcases h3 with e | ⟨k, hk, d, hd, e⟩
      · omega
      · rw [e]; exact g2 k hk d hd
    have l2 : n' ≤ n := by
      rcases g3 with e | ⟨k, hk, d, hd, e⟩
      · omega
      · rw [e]; exact h2 k hk d hd
    omega

theorem through_unique {E : Engine D} {O : Opts} {s : Int → Option D} {t0 : ℚ} {i : Int} {n : Nat}
    {c0 : Cell D} {j : Nat} {c : Cell D} {sp : ℚ} {rows : List (Row D)}
    {l : Option (Cell D × ℚ × Output D)} (h : Through E O s t0 i n c0 j c sp rows l) :
    ∀ {c' : Cell D} {sp' : ℚ} {rows' : List (Row D)} {l' : Option (Cell D × ℚ × Output D)},
      Through E O s t0 i n c0 j c' sp' rows' l' → c = c' ∧ sp = sp' ∧ rows = rows' ∧ l = l' := by
  induction h with
  | none => intro c' sp' rows' l' h'; cases h'; exact ⟨rfl, rfl, rfl, rfl⟩
  | each j sp rows l o hi ht hr ih =>
    intro c' sp' rows' l' h'
    cases h' with
    | each _ sp1 rows1 l1 o1 _ ht1 hr1 =>
      obtain ⟨_, _, rfl, _⟩ := ih ht1
      have := reacts_unique hr hr1
      cases this
      exact ⟨rfl, rfl, rfl, rfl⟩
    | follow _ _ _ _ _ _ hi1 => rw [hi] at hi1; exact absurd hi1 (by decide)
  | follow j c sp rows l o hi ht hr ih =>
    intro c' sp' rows' l' h'
    cases h' with
    | each _ _ _ _ _ hi1 => rw [hi] at hi1; exact absurd hi1 (by decide)
    | follow _ c1 sp1 rows1 l1 o1 _ ht1 hr1 =>
      obtain ⟨rfl, rfl, rfl, _⟩ := ih ht1
      have := reacts_unique hr hr1
      cases this
      exact ⟨rfl, rfl, rfl, rfl⟩

theorem treated_unique {E : Engine D} {O : Opts} {s : Int → Option D} {t0 : ℚ} {i : Int}
    {c0 c1 c2 : Cell D} {rows1 rows2 : List (Row D)} {sp1 sp2 : ℚ}
    (h1 : Treated E O s t0 i c0 c1 rows1 sp1) (h2 : Treated E O s t0 i c0 c2 rows2 sp2) :
    c1 = c2 ∧ rows1 = rows2 ∧ sp1 = sp2 := by
  obtain ⟨n, c, nx, b, o, hn, ht, rfl⟩ := h1
  obtain ⟨n', c', nx', b', o', hn', ht', rfl⟩ := h2
  have := isSteps_unique hn hn'
  subst this
  obtain ⟨_, _, hr, hl⟩ := through_unique ht ht'
  cases hl
  exact ⟨rfl, hr, rfl⟩

/-- Earlier stages of a cell whose steps succeed. -/
theorem through_before {E : Engine D} {O : Opts} {s : Int → Option D} {t0 : ℚ} {i : Int} {n : Nat}
    {c0 : Cell D} {j : Nat} {c : Cell D} {sp : ℚ} {rows : List (Row D)}
    {l : Option (Cell D × ℚ × Output D)} (h : Through E O s t0 i n c0 j c sp rows l) :
    ∀ j' < j, ∃ c' sp' rows' l' o, Through E O s t0 i n c0 j' c' sp' rows' l' ∧
      Reacts E s t0 i n (j' + 1) (!O.incr || j' == 0) (spell E O c' n (j' + 1)) sp' c' (some o) := by
  induction h with
  | none => intro j' h; omega
  | each j sp rows l o hi ht hr ih =>
    intro j' hj'
    by_cases e : j' = j
    · subst e
      have h0 : sp = 0 := by
        cases ht with
        | none => rfl
        | each => rfl
        | follow _ _ _ _ _ _ hh => rw [hi] at hh; exact absurd hh (by decide)
      subst h0
      exact ⟨_, _, _, _, o, ht, by simpa [hi] using hr⟩
    · exact ih j' (by omega)
  | follow j c sp rows l o hi ht hr ih =>
    intro j' hj'
    by_cases e : j' = j
    · subst e
      exact ⟨_, _, _, _, o, ht, by simpa [hi] using hr⟩
    · exact ih j' (by omega)

/-- A cell that is treated does not fail. -/
theorem treated_not_fails {E : Engine D} {O : Opts} {s : Int → Option D} {t0 : ℚ} {i : Int}
    {c0 c1 : Cell D} {rows1 rows2 : List (Row D)} {sp1 : ℚ}
    (h1 : Treated E O s t0 i c0 c1 rows1 sp1) (h2 : Fails E O s t0 i c0 rows2) : False := by
  obtain ⟨n, c, nx, b, o, hn, ht, rfl⟩ := h1
  obtain ⟨n', j, c', sp, l, hj, hn', ht', hr⟩ := h2
  have := isSteps_unique hn hn'
  subst this
  obtain ⟨c2, sp2, rows2, l2, o2, ht2, hr2⟩ := through_before ht j hj
  obtain ⟨rfl, rfl, _, _⟩ := through_unique ht' ht2
  have := reacts_unique hr hr2
  exact absurd this (by simp)

theorem treats_unique {E : Engine D} {O : Opts} {t0 : ℚ} {cells : List Int} {m m1 : Maps D}
    {rows1 : List (Row D)} (h : Treats E O t0 cells m m1 rows1) : ∀ {m2 : Maps D}
    {rows2 : List (Row D)}, Treats E O t0 cells m m2 rows2 → m1 = m2 ∧ rows1 = rows2 := by
  induction h with
  | nil m => intro m2 rows2 h2; cases h2; exact ⟨rfl, rfl⟩
  | skip i is m m' rows hs _ ih =>
    intro m2 rows2 h2
    cases h2 with
    | skip _ _ _ _ _ _ h => exact ih h
    | cell _ _ _ _ _ _ _ _ hn => exact absurd hs hn
  | cell i is m m' c' rows rows' sp hs ht _ ih =>
    intro m2 rows2 h2
    cases h2 with
    | skip _ _ _ _ _ hn => exact absurd hn hs
    | cell _ _ _ _ _ _ _ _ _ ht1 h1 =>
      obtain ⟨rfl, rfl, _⟩ := treated_unique ht ht1
      obtain ⟨rfl, rfl⟩ := ih h1
      exact ⟨rfl, rfl⟩

/-- Cells outside the list stay as they are. -/
theorem treats_frame {E : Engine D} {O : Opts} {t0 : ℚ} {cells : List Int} {m m' : Maps D}
    {rows : List (Row D)} (h : Treats E O t0 cells m m' rows) :
    ∀ k n, n ∉ cells → m' k n = m k n := by
  induction h with
  | nil m => intros; rfl
  | skip i is m m' rows _ _ ih =>
    intro k n hn
    exact ih k n (fun h => hn (List.mem_cons_of_mem _ h))
  | cell i is m m' c' rows rows' sp _ _ _ ih =>
    intro k n hn
    rw [ih k n (fun h => hn (List.mem_cons_of_mem _ h)), withCell,
      if_neg (fun e => hn (by rw [e]; exact List.mem_cons_self))]

/-- Which entities other than solutions exist does not change. -/
theorem treated_isSome {E : Engine D} {O : Opts} {s1 : Int → Option D} {t0 : ℚ} {i : Int}
    {c0 c' : Cell D} {rows : List (Row D)} {sp : ℚ}
    (ht : Treated E O s1 t0 i c0 c' rows sp) (k : Kind) (hk : k ≠ .solution) :
    (c' k).isSome = (c0 k).isSome := by
  obtain ⟨n, c, next, b, o, hn, hth, rfl⟩ := ht
  have hsome : ∀ (j : Nat) (c1 : Cell D) (sp1 : ℚ) (rows1 : List (Row D)) l1,
      Through E O s1 t0 i n c0 j c1 sp1 rows1 l1 →
      (∀ k', k' ≠ .solution → (c1 k').isSome = (c0 k').isSome) ∧
      ∀ c2 sp2 o2, l1 = some (c2, sp2, o2) →
        ∀ k', k' ≠ .solution → (c2 k').isSome = (c0 k').isSome := by
    intro j c1 sp1 rows1 l1 ht
    induction ht with
    | none => exact ⟨fun _ _ => rfl, by simp⟩
    | each j sp r l o _ _ _ ih =>
      refine ⟨fun _ _ => rfl, ?_⟩
      rintro c2 sp2 o2 ⟨⟩ k' _
      rfl
    | follow j c1 sp r l o _ _ _ ih =>
      refine ⟨?_, ?_⟩
      · intro k' h1
        rw [← ih.1 k' h1]
        cases k' <;> simp_all [absorb]
      · rintro c2 sp2 o2 ⟨⟩
        exact ih.1
  have h := (hsome _ _ _ _ _ hth).2 c sp o rfl k hk
  cases k <;> simp_all [settle, absorb]

theorem treats_isSome {E : Engine D} {O : Opts} {t0 : ℚ} {cells : List Int} {m m' : Maps D}
    {rows : List (Row D)} (h : Treats E O t0 cells m m' rows) :
    ∀ k n, k ≠ .solution → (m' k n).isSome = (m k n).isSome := by
  induction h with
  | nil m => intros; rfl
  | skip i is m m' rows _ _ ih => exact ih
  | cell i is m m' c' rows rows' sp _ ht _ ih =>
    intro k n hk
    rw [ih k n hk, withCell]
    split
    · rename_i e; rw [e]; exact treated_isSome ht k hk
    · rfl

/-- Which cells are passed over does not change. -/
theorem treats_skipped {E : Engine D} {O : Opts} {t0 : ℚ} {cells : List Int} {m m' : Maps D}
    {rows : List (Row D)} (h : Treats E O t0 cells m m' rows) (n : Int) :
    Skipped m' n ↔ Skipped m n := by
  induction h with
  | nil m => rfl
  | skip i is m m' rows _ _ ih => exact ih
  | cell i is m m' c' rows rows' sp hs ht _ ih =>
    rw [ih]
    by_cases e : n = i
    · subst e
      refine ⟨?_, fun h => absurd h hs⟩
      rintro (h | ⟨h, _⟩)
      · exact .inl h
      · rw [withCell, if_pos rfl] at h
        exact absurd h (treated_solution ht)
    · unfold Skipped withCell
      rw [if_neg e, if_neg e]

theorem treats_keeps {E : Engine D} {O : Opts} {t0 : ℚ} {cells : List Int} {m m' : Maps D}
    {rows : List (Row D)} (h : Treats E O t0 cells m m' rows) (n : Int) (hn : Skipped m n)
    (k : Kind) : m' k n = m k n := by
  induction h with
  | nil m => rfl
  | skip i is m m' rows _ _ ih => exact ih hn
  | cell i is m m' c' rows rows' sp hs ht _ ih =>
    have e : n ≠ i := fun e => hs (e ▸ hn)
    have : Skipped (withCell m i c') n := by
      unfold Skipped withCell at *
      rw [if_neg e, if_neg e]
      exact hn
    rw [ih this, withCell, if_neg e]

/-- Cells that do not mix each other: each is treated from what it contained at the
start. -/
theorem treats_each {E : Engine D} {O : Opts} {t0 : ℚ} {cells : List Int} {m m' : Maps D}
    {rows : List (Row D)} (h : Treats E O t0 cells m m' rows) (hd : cells.Nodup)
    (hm : ∀ i ∈ cells, ∀ d, m .mix i = some d → ∀ n ∈ E.named d, n ∉ cells) :
    ∀ i ∈ cells, ¬ Skipped m i →
      ∃ rows sp, Treated E O (m .solution) t0 i (cellAt m i) (cellAt m' i) rows sp := by
  induction h with
  | nil m => intro i hi; simp at hi
  | skip i is m m' rows hs _ ih =>
    rw [List.nodup_cons] at hd
    intro a ha hns
    rcases List.mem_cons.1 ha with rfl | ha
    · exact absurd hs hns
    · exact ih hd.2 (fun b hb d hbd n hn hin => hm b (List.mem_cons_of_mem _ hb) d hbd n hn
        (List.mem_cons_of_mem _ hin)) a ha hns
  | cell i is m m' c' rows rows' sp hs ht htr ih =>
    rw [List.nodup_cons] at hd
    intro a ha hns
    have hmix := withCell_mix ht
    rcases List.mem_cons.1 ha with rfl | ha
    · refine ⟨rows, sp, ?_⟩
      have : cellAt m' a = c' := by
        funext k
        show m' k a = _
        rw [treats_frame htr k a hd.1, withCell, if_pos rfl]
      rw [this]
      exact ht
    · have e : a ≠ i := fun e => hd.1 (e ▸ ha)
      have hns' : ¬ Skipped (withCell m i c') a := by
        unfold Skipped withCell at *
        rw [if_neg e, if_neg e]
        exact hns
      obtain ⟨r, s, hh⟩ := ih hd.2 (fun b hb d hbd n hn hin => by
        rw [hmix] at hbd
        exact hm b (List.mem_cons_of_mem _ hb) d hbd n hn (List.mem_cons_of_mem _ hin)) a ha hns'
      have hcell : cellAt (withCell m i c') a = cellAt m a := by
        funext k
        show withCell m i c' k a = m k a
        rw [withCell, if_neg e]
      rw [hcell] at hh
      refine ⟨r, s, treated_congr ?_ hh⟩
      intro d hbd n hn
      have : n ≠ i := by
        intro e'
        exact hm a (List.mem_cons_of_mem _ ha) d hbd n hn (e' ▸ List.mem_cons_self)
      rw [withCell, if_neg this]

theorem cellLoop_append (E : Engine D) (O : Opts) (t0 : ℚ) : ∀ (a b : List Int) (st : St D),
    cellLoop E O t0 (a ++ b) st = match cellLoop E O t0 a st with
      | .ok st' => cellLoop E O t0 b st'
      | .stop st' => .stop st'
      | .ub => .ub
  | [], b, st => rfl
  | i :: a, b, st => by
    rw [List.cons_append, cellLoop, cellLoop]
    split
    · exact cellLoop_append E O t0 a b st
    · split
      · exact cellLoop_append E O t0 a b st
      · cases runCell E O t0 i st with
        | ok st' => exact cellLoop_append E O t0 a b st'
        | stop _ => rfl
        | ub => rfl

theorem cellLoop_skipped (E : Engine D) (O : Opts) (t0 : ℚ) : ∀ (b : List Int) (st : St D),
    (∀ i ∈ b, Skipped st.maps i) → cellLoop E O t0 b st = .ok st
  | [], st, _ => rfl
  | i :: b, st, h => by
    have ih := cellLoop_skipped E O t0 b st (fun a ha => h a (List.mem_cons_of_mem _ ha))
    rw [cellLoop]
    split
    · exact ih
    · rename_i h0
      rcases h i (by simp) with h' | h'
      · exact absurd h' h0
      · rw [if_pos h', ih]

/-- The time of a cell with kinetic reactants and a given time step. -/
theorem treated_time {E : Engine D} {O : Opts} {s1 : Int → Option D} {t0 : ℚ} {i : Int}
    {c0 c' : Cell D} {rows : List (Row D)} {sp t : ℚ}
    (ht : Treated E O s1 t0 i c0 c' rows sp) (hO : O.step = some t) :
    sp = if (c0 .kinetics).isSome then t else 0 := by
  obtain ⟨n, c, next, b, o, hn, hth, rfl⟩ := ht
  have hn1 := isSteps_pos hn
  have key : ∀ (j : Nat) (c1 : Cell D) (sp1 : ℚ) (rows1 : List (Row D)) l1,
      Through E O s1 t0 i n c0 j c1 sp1 rows1 l1 →
      ((c1 .kinetics).isSome = (c0 .kinetics).isSome) ∧
      (O.incr = true → sp1 = if (c0 .kinetics).isSome then j * (t / n) else 0) ∧
      ∀ c2 sp2 o2, l1 = some (c2, sp2, o2) →
        sp2 = if (c0 .kinetics).isSome then j * t / n else 0 := by
    intro j c1 sp1 rows1 l1 ht
    induction ht with
    | none => exact ⟨rfl, by simp, by simp⟩
    | each j sp r l o hi _ _ ih =>
      refine ⟨rfl, by simp [hi], ?_⟩
      rintro c2 sp2 o2 ⟨⟩
      unfold spell
      cases c0 .kinetics with
      | none => rfl
      | some d => rw [hO, hi]; rfl
    | follow j c1 sp r l o hi _ _ ih =>
      have hsum : sp + spell E O c1 n (j + 1) =
          if (c0 .kinetics).isSome then ((j + 1 : Nat) : ℚ) * (t / n) else 0 := by
        rw [ih.2.1 hi]
        unfold spell
        have h1 := ih.1
        cases hc : c1 .kinetics with
        | none => rw [hc] at h1; rw [← h1]; simp
        | some d =>
          rw [hc] at h1
          rw [← h1, hO, hi]
          simp only [Option.isSome_some, if_true]
          push_cast
          ring
      refine ⟨?_, fun _ => hsum, ?_⟩
      · rw [← ih.1]
        simp [absorb]
      · rintro c2 sp2 o2 ⟨⟩
        rw [hsum]
        split
        · ring
        · rfl
  have := (key _ _ _ _ _ hth).2.2 c sp o rfl
  rw [this]
  split
  · have : (n : ℚ) ≠ 0 := by
      have : n ≠ 0 := by omega
      exact_mod_cast this
    field_simp
  · rfl

/-- The rows of a cell: one per step. -/
theorem through_rows {E : Engine D} {O : Opts} {s1 : Int → Option D} {t0 : ℚ} {i : Int} {n : Nat}
    {c0 : Cell D} {j : Nat} {c : Cell D} {sp : ℚ} {rows : List (Row D)}
    {l : Option (Cell D × ℚ × Output D)} (h : Through E O s1 t0 i n c0 j c sp rows l) :
    rows.map (fun r => (r.cell, r.step)) = (List.range' 1 j).map fun s => (i, s) := by
  induction h with
  | none => rfl
  | each j sp r l o _ _ _ ih =>
    rw [List.map_append, ih, List.range'_concat, List.map_append]
    simp [Nat.add_comm]
  | follow j c1 sp r l o _ _ _ ih =>
    rw [List.map_append, ih, List.range'_concat, List.map_append]
    simp [Nat.add_comm]

/-- A cell that is reached in a treated list does not fail there. -/
theorem treats_not_fails {E : Engine D} {O : Opts} {t : ℚ} : ∀ (l : List Int) (m mm : Maps D)
    (r : List (Row D)) (a : Int) (rest : List Int) (m' : Maps D) (r' rf : List (Row D)),
    Treats E O t (l ++ a :: rest) m mm r → Treats E O t l m m' r' → ¬ Skipped m' a →
    Fails E O (m' .solution) t a (cellAt m' a) rf → False := by
  intro l
  induction l with
  | nil =>
    intro m mm r a rest m' r' rf h h' hn hf
    cases h'
    cases h with
    | skip _ _ _ _ _ hs => exact hn hs
    | cell _ _ _ _ _ _ _ _ _ ht => exact treated_not_fails ht hf
  | cons b l ih =>
    intro m mm r a rest m' r' rf h h' hn hf
    cases h with
    | skip _ _ _ _ _ hs hr =>
      cases h' with
      | skip _ _ _ _ _ _ hr' => exact ih _ _ _ _ _ _ _ _ hr hr' hn hf
      | cell _ _ _ _ _ _ _ _ hs' => exact hs' hs
    | cell _ _ _ _ c1 _ _ _ hs ht hr =>
      cases h' with
      | skip _ _ _ _ _ hs' => exact hs hs'
      | cell _ _ _ _ c2 _ _ _ _ ht' hr' =>
        obtain ⟨rfl, _, _⟩ := treated_unique ht ht'
        exact ih _ _ _ _ _ _ _ _ hr hr' hn hf

/-- Treating one list and then another is treating both. -/
theorem treats_append {E : Engine D} {O : Opts} {t : ℚ} {l1 l2 : List Int} {m m1 m2 : Maps D}
    {r1 r2 : List (Row D)} (h1 : Treats E O t l1 m m1 r1) (h2 : Treats E O t l2 m1 m2 r2) :
    Treats E O t (l1 ++ l2) m m2 (r1 ++ r2) := by
  induction h1 with
  | nil m => exact h2
  | skip i is m m' rows hs _ ih => exact .skip i _ _ _ _ hs (ih h2)
  | cell i is m m' c' rows rows' sp hs ht _ ih =>
    rw [List.append_assoc]
    exact .cell i _ _ _ c' _ _ sp hs ht (ih h2)

/-- The mixes stay as they are. -/
theorem treats_mix {E : Engine D} {O : Opts} {t : ℚ} {l : List Int} {m m' : Maps D}
    {rows : List (Row D)} (h : Treats E O t l m m' rows) (n : Int) : m' .mix n = m .mix n := by
  induction h with
  | nil m => rfl
  | skip i is m m' rows _ _ ih => exact ih
  | cell i is m m' c' rows rows' sp _ ht _ ih => rw [ih, withCell_mix ht]

end Verif.CellRun
