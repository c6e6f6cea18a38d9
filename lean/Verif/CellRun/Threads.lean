import Verif.CellRun.WorkerProps

/-!
# The division of the cells among workers
-/

namespace Verif.CellRun

variable {D : Type} {E : Engine D} {O : Opts} {t0 : ℚ} {keep : Bool} {active : Int → Bool}

theorem works_frame {l : List Int} {m m' : Maps D} {rows : List (Option (Row D))}
    (h : Works E O t0 keep active l m m' rows) (k : Kind) (n : Int) (hn : n ∉ l) :
    m' k n = m k n := by
  induction h with
  | nil m => rfl
  | dry i is m m' rows _ _ ih => exact ih (fun hh => hn (List.mem_cons_of_mem _ hh))
  | treated i is m m' c' r sp rows _ _ _ ih =>
    rw [ih (fun hh => hn (List.mem_cons_of_mem _ hh)), withCell, if_neg]
    exact fun e => hn (by rw [e]; simp)
  | failed i is m m' r rows _ _ _ _ ih => exact ih (fun hh => hn (List.mem_cons_of_mem _ hh))

theorem works_split {l1 l2 : List Int} {m m' : Maps D} {rows : List (Option (Row D))}
    (h : Works E O t0 keep active (l1 ++ l2) m m' rows) :
    ∃ mm r1 r2, rows = r1 ++ r2 ∧ Works E O t0 keep active l1 m mm r1 ∧
      Works E O t0 keep active l2 mm m' r2 := by
  induction l1 generalizing m rows with
  | nil => exact ⟨m, [], rows, rfl, .nil m, h⟩
  | cons i l1 ih =>
    cases h with
    | dry _ _ _ _ rows ha h =>
      obtain ⟨mm, r1, r2, rfl, g1, g2⟩ := ih h
      exact ⟨mm, none :: r1, r2, rfl, .dry i _ _ _ _ ha g1, g2⟩
    | treated _ _ _ _ c' r sp rows ha ht h =>
      obtain ⟨mm, r1, r2, rfl, g1, g2⟩ := ih h
      exact ⟨mm, some r :: r1, r2, rfl, .treated i _ _ _ c' r sp _ ha ht g1, g2⟩
    | failed _ _ _ _ r rows ha hk hf h =>
      obtain ⟨mm, r1, r2, rfl, g1, g2⟩ := ih h
      exact ⟨mm, none :: r1, r2, rfl, .failed i _ _ _ r _ ha hk hf g1, g2⟩

theorem works_unique {l : List Int} {m m1 m2 : Maps D} {r1 r2 : List (Option (Row D))}
    (h1 : Works E O t0 keep active l m m1 r1) (h2 : Works E O t0 keep active l m m2 r2) :
    m1 = m2 ∧ r1 = r2 := by
  induction h1 generalizing m2 r2 with
  | nil m => cases h2; exact ⟨rfl, rfl⟩
  | dry i is m m' rows ha _ ih =>
    cases h2 with
    | dry _ _ _ _ rows' _ h =>
      obtain ⟨rfl, rfl⟩ := ih h; exact ⟨rfl, rfl⟩
    | treated _ _ _ _ _ _ _ _ ha' => rw [ha] at ha'; cases ha'
    | failed _ _ _ _ _ _ ha' => rw [ha] at ha'; cases ha'
  | treated i is m m' c' r sp rows ha ht _ ih =>
    cases h2 with
    | dry _ _ _ _ _ ha' => rw [ha] at ha'; cases ha'
    | treated _ _ _ _ c2 r2 sp2 _ _ ht' h =>
      obtain ⟨rfl, hr, _⟩ := treated_unique ht ht'
      obtain ⟨rfl, rfl⟩ := ih h
      simp only [List.cons.injEq, and_true] at hr
      exact ⟨rfl, by rw [hr]⟩
    | failed _ _ _ _ _ _ _ _ hf => exact (treated_not_fails ht hf).elim
  | failed i is m m' r rows ha hk hf _ ih =>
    cases h2 with
    | dry _ _ _ _ _ ha' => rw [ha] at ha'; cases ha'
    | treated _ _ _ _ c2 r2 sp2 _ _ ht' h => exact (treated_not_fails ht' hf).elim
    | failed _ _ _ _ _ _ _ _ _ h =>
      obtain ⟨rfl, rfl⟩ := ih h; exact ⟨rfl, rfl⟩

theorem works_not_fails {l rest : List Int} {i : Int} {m m' mm : Maps D}
    {rows r : List (Option (Row D))} {rf : List (Row D)}
    (h : Works E O t0 false active (l ++ i :: rest) m m' rows)
    (h' : Works E O t0 false active l m mm r) (ha : active i = true)
    (hf : Fails E O (mm .solution) t0 i (cellAt mm i) rf) : False := by
  obtain ⟨m1, a, b, _, g1, g2⟩ := works_split h
  obtain ⟨rfl, _⟩ := works_unique g1 h'
  cases g2 with
  | dry _ _ _ _ _ ha' => rw [ha] at ha'; cases ha'
  | treated _ _ _ _ _ _ _ _ _ ht => exact treated_not_fails ht hf
  | failed _ _ _ _ _ _ _ hk => cases hk

/-- The treatment of cells without mixes depends on their content alone. -/
theorem works_congr {l : List Int} {m m' m2 : Maps D} {rows : List (Option (Row D))}
    (h : Works E O t0 keep active l m m' rows) (hd : l.Nodup)
    (hs : ∀ i ∈ l, cellAt m2 i = cellAt m i) (hm : ∀ i ∈ l, m .mix i = none) :
    ∃ m2', Works E O t0 keep active l m2 m2' rows ∧ ∀ i ∈ l, cellAt m2' i = cellAt m' i := by
  induction h generalizing m2 with
  | nil m => exact ⟨m2, .nil m2, by simp⟩
  | dry i is m m' rows ha hw ih =>
    rw [List.nodup_cons] at hd
    obtain ⟨m2', g1, g2⟩ := ih hd.2 (fun a h => hs a (by simp [h])) (fun a h => hm a (by simp [h]))
    refine ⟨m2', .dry i _ _ _ _ ha g1, ?_⟩
    intro a h
    rcases List.mem_cons.1 h with rfl | h
    · funext k
      have e := congrFun (hs a (by simp)) k
      exact (works_frame g1 k a hd.1).trans (e.trans (works_frame hw k a hd.1).symm)
    · exact g2 a h
  | treated i is m m' c' r sp rows ha ht hw ih =>
    rw [List.nodup_cons] at hd
    have hw2 : ∀ a ∈ is, cellAt (withCell m2 i c') a = cellAt (withCell m i c') a := by
      intro a h
      funext k
      have e : a ≠ i := fun e => hd.1 (e ▸ h)
      show withCell m2 i c' k a = withCell m i c' k a
      rw [withCell, withCell, if_neg e, if_neg e]
      exact congrFun (hs a (by simp [h])) k
    have hm2 : ∀ a ∈ is, withCell m i c' .mix a = none := by
      intro a h
      have e : a ≠ i := fun e => hd.1 (e ▸ h)
      rw [withCell, if_neg e]
      exact hm a (by simp [h])
    obtain ⟨m2', g1, g2⟩ := ih hd.2 hw2 hm2
    refine ⟨m2', .treated i _ _ _ c' r sp _ ha ?_ g1, ?_⟩
    · rw [hs i (by simp)]
      refine treated_congr ?_ ht
      intro d hid
      rw [show cellAt m i .mix = m .mix i from rfl, hm i (by simp)] at hid
      cases hid
    · intro a h
      rcases List.mem_cons.1 h with rfl | h
      · funext k
        refine (works_frame g1 k a hd.1).trans (Eq.trans ?_ (works_frame hw k a hd.1).symm)
        rw [withCell, withCell, if_pos rfl, if_pos rfl]
      · exact g2 a h
  | failed i is m m' r rows ha hk hf hw ih =>
    rw [List.nodup_cons] at hd
    obtain ⟨m2', g1, g2⟩ := ih hd.2 (fun a h => hs a (by simp [h])) (fun a h => hm a (by simp [h]))
    refine ⟨m2', .failed i _ _ _ r _ ha hk ?_ g1, ?_⟩
    · rw [hs i (by simp)]
      refine fails_congr ?_ hf
      intro d hid
      rw [show cellAt m i .mix = m .mix i from rfl, hm i (by simp)] at hid
      cases hid
    · intro a h
      rcases List.mem_cons.1 h with rfl | h
      · funext k
        have e := congrFun (hs a (by simp)) k
        exact (works_frame g1 k a hd.1).trans (e.trans (works_frame hw k a hd.1).symm)
      · exact g2 a h

end Verif.CellRun
