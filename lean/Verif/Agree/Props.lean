import Verif.Agree.Model
import Verif.Grid.Lemmas

/-! # What the check of the selected output finds -/

namespace Verif.Agree

open Verif.OMap Verif.Grid Verif.SelOut

/-! ## Specification -/

/-- The headings of all selected outputs. -/
def heads (w : W) : List (List Name) := w.map (fun p => p.2.heads)

/-- Selected output `u` has `chem` rows in all, and every worker has it, with columns. -/
def RowsFit (chem : Int) (workers : List W) (u : Int) : Prop :=
  ∃ ts : List Table, List.Forall₂ (fun w t => find w u = some t) workers ts ∧
    ((ts.map (fun t => t.nRow)).sum : Int) = chem

/-- Every worker has every selected output of worker 0, with at least one column. -/
def Defined (us : List Int) (workers : List W) : Prop :=
  ∀ u ∈ us, ∀ w ∈ workers, ∃ t, find w u = some t ∧ t.heads ≠ []

/-! ## Lemmas -/

theorem pass_ok (f : W → Out Unit) (ws : List W) : pass f ws = .ok () ↔ ∀ w ∈ ws, f w = .ok () := by
  induction ws with
  | nil => simp [pass]
  | cons w ws ih =>
    unfold pass
    cases h : f w with
    | ok u => simp [ih, h]
    | throw => simp [h]
    | ub => simp [h]

theorem sizes_ok (w0 w : W) : sizes w0 w = .ok () ↔ w.length = w0.length := by
  unfold sizes; split <;> simp_all

theorem columns_ok : ∀ (a b : W), b.length = a.length →
    (columns a b = .ok () ↔ b.map (fun p => p.2.heads.length) = a.map (fun p => p.2.heads.length))
  | [], [], _ => by simp [columns]
  | x :: a, y :: b, h => by
    unfold columns
    by_cases e : x.2.colCount = y.2.colCount
    · have e' : y.2.heads.length = x.2.heads.length := e.symm
      rw [if_neg (by simpa using e), columns_ok a b (by simpa using h)]
      simp [e']
    · have e' : ¬ y.2.heads.length = x.2.heads.length := fun z => e z.symm
      rw [if_pos e]
      simp [e']

theorem heading_ok {a b : Table} {i : Nat} (ha : i < a.heads.length) (hb : i < b.heads.length) :
    heading a b i = .ok () ↔ a.heads[i] = b.heads[i] := by
  have g : ∀ t : Table, (h : i < t.heads.length) → t.get 0 i = .ok (.val (.str t.heads[i])) := by
    intro t h
    have hr : t.rowCount = t.nRow + 1 := by
      unfold Table.rowCount Table.colCount; rw [if_pos (by omega)]
    have hc : t.colCount = t.heads.length := rfl
    unfold Table.get
    rw [if_neg (by rw [hr]; omega), if_neg (by rw [hc]; omega), if_neg (by simp), idx_nat (List.getElem?_eq_getElem h)]
    rfl
  unfold heading
  rw [g a ha, g b hb]
  simp only [Out.ok_bind]
  split <;> simp_all

theorem row_ok {a b : Table} (h : b.heads.length = a.heads.length) : ∀ (n i : Nat),
    i + n = a.heads.length → (row a b i n = .ok () ↔ b.heads.drop i = a.heads.drop i)
  | 0, i, e => by
    rw [List.drop_of_length_le (by omega), List.drop_of_length_le (by omega)]; simp [row]
  | n + 1, i, e => by
    have ha : i < a.heads.length := by omega
    have hb : i < b.heads.length := by omega
    unfold row
    rw [List.drop_eq_getElem_cons ha, List.drop_eq_getElem_cons hb]
    have ih := row_ok h n (i + 1) (by omega)
    have hk := heading_ok ha hb
    cases hh : heading a b i with
    | ok u =>
      have := hk.mp hh
      simp only [Out.ok_bind, ih, this, List.cons.injEq, true_and]
    | throw =>
      rw [hh] at hk
      simp only [reduceCtorEq, false_iff] at hk
      simp only [Out.throw_bind, reduceCtorEq, List.cons.injEq, false_iff, not_and]
      exact fun x => absurd x.symm hk
    | ub =>
      rw [hh] at hk
      simp only [reduceCtorEq, false_iff] at hk
      simp only [Out.ub_bind, reduceCtorEq, List.cons.injEq, false_iff, not_and]
      exact fun x => absurd x.symm hk

theorem headings_ok : ∀ (a b : W),
    b.map (fun p => p.2.heads.length) = a.map (fun p => p.2.heads.length) →
    (headings a b = .ok () ↔ heads b = heads a)
  | [], [], _ => by simp [headings, heads]
  | [], _ :: _, h => by simp at h
  | _ :: _, [], h => by simp at h
  | x :: a, y :: b, h => by
    simp only [List.map_cons, List.cons.injEq] at h
    unfold headings
    have hr := row_ok h.1 x.2.heads.length 0 (by simp)
    simp only [List.drop_zero] at hr
    have ih := headings_ok a b h.2
    unfold heads at ih ⊢
    unfold Table.colCount
    cases e : row x.2 y.2 0 x.2.heads.length with
    | ok u => simp [ih, hr.mp e]
    | throw => rw [e] at hr; simp at hr; simp [hr]
    | ub => rw [e] at hr; simp at hr; simp [hr]

theorem rows_ok (u : Int) : ∀ workers : List W, (∀ w ∈ workers, ∃ t, find w u = some t ∧ t.heads ≠ []) →
    ∃ ts, List.Forall₂ (fun w t => find w u = some t) workers ts ∧
      rows u workers = .ok ((ts.map (fun t => t.nRow)).sum : Int)
  | [], _ => ⟨[], .nil, rfl⟩
  | w :: ws, h => by
    obtain ⟨t, ht, hne⟩ := h w (by simp)
    obtain ⟨ts, h1, h2⟩ := rows_ok u ws (fun x hx => h x (by simp [hx]))
    refine ⟨t :: ts, .cons ht h1, ?_⟩
    unfold rows
    rw [ht]
    dsimp only
    rw [h2]
    have hr : t.rowCount = t.nRow + 1 := by
      unfold Table.rowCount Table.colCount
      rw [if_pos (by simpa using hne)]
    simp [hr]

theorem found_unique {u : Int} : ∀ {ws : List W} {a b : List Table},
    List.Forall₂ (fun w t => find w u = some t) ws a → List.Forall₂ (fun w t => find w u = some t) ws b → a = b
  | [], _, _, .nil, .nil => rfl
  | _ :: _, _, _, .cons h1 r1, .cons h2 r2 => by
    rw [h1] at h2
    rw [Option.some.inj h2, found_unique r1 r2]

theorem count_ok (chem : Int) (workers : List W) : ∀ us, Defined us workers →
    (count chem workers us = .ok () ↔ ∀ u ∈ us, RowsFit chem workers u)
  | [], _ => by simp [count]
  | u :: us, h => by
    obtain ⟨ts, h1, h2⟩ := rows_ok u workers (h u (by simp))
    have ih := count_ok chem workers us (fun x hx => h x (by simp [hx]))
    unfold count
    rw [h2]
    simp only [Out.ok_bind]
    have key : RowsFit chem workers u ↔ ((ts.map (fun t => t.nRow)).sum : Int) = chem := by
      constructor
      · rintro ⟨ts', a, b⟩
        rw [found_unique h1 a]; exact b
      · intro e; exact ⟨ts, h1, e⟩
    by_cases e : ((ts.map (fun t => t.nRow)).sum : Int) = chem
    · rw [if_neg (by simpa using e), ih]
      simp [key.mpr e]
    · rw [if_pos e]
      simp only [reduceCtorEq, List.mem_cons, forall_eq_or_imp, false_iff, not_and]
      exact fun x => absurd (key.mp x) e

/-! ## Theorems -/

/-- With the bound `tasks`, the check passes if and only if workers 1 to `tasks - 1` have the headings of worker 0 and
every selected output has a row for each reaction cell. -/
theorem check_compares (tasks : Nat) (chem : Int) (w0 : W) (ws : List W) (hw : ws ≠ [])
    (hd : Defined (keys w0) (w0 :: ws)) :
    check true tasks chem (w0 :: ws) (keys w0) = .ok () ↔
      (∀ w ∈ ws.take (tasks - 1), heads w = heads w0) ∧ ∀ u ∈ keys w0, RowsFit chem (w0 :: ws) u := by
  have hl : ¬ (w0 :: ws).length ≤ 1 := by
    have := List.length_pos_iff.mpr hw
    simp only [List.length_cons]; omega
  have hk : (keys w0).take w0.length = keys w0 := by
    rw [List.take_of_length_le]; simp [keys]
  unfold check
  rw [if_neg (by simp), if_neg hl]
  dsimp only
  rw [hk]
  have c := count_ok chem (w0 :: ws) (keys w0) hd
  generalize ws.take (tasks - 1) = os
  have p1 := pass_ok (sizes w0) os
  have p2 := pass_ok (columns w0) os
  have p3 := pass_ok (headings w0) os
  have len : ∀ w, heads w = heads w0 → w.length = w0.length := fun w h => by
    simpa [heads] using congrArg List.length h
  have wid : ∀ w, heads w = heads w0 →
      w.map (fun p => p.2.heads.length) = w0.map (fun p => p.2.heads.length) := fun w h => by
    have := congrArg (List.map List.length) h
    simpa [heads, Function.comp_def] using this
  cases e1 : pass (sizes w0) os with
  | throw =>
    rw [e1] at p1
    simp only [Out.throw_bind, reduceCtorEq, false_iff, not_and]
    intro h
    exact absurd (p1.mpr fun w hw => (sizes_ok w0 w).mpr (len w (h w hw))) (by simp)
  | ub =>
    rw [e1] at p1
    simp only [Out.ub_bind, reduceCtorEq, false_iff, not_and]
    intro h
    exact absurd (p1.mpr fun w hw => (sizes_ok w0 w).mpr (len w (h w hw))) (by simp)
  | ok _ =>
    have s1 : ∀ w ∈ os, w.length = w0.length := fun w hw => (sizes_ok w0 w).mp (p1.mp e1 w hw)
    simp only [Out.ok_bind]
    cases e2 : pass (columns w0) os with
    | throw =>
      rw [e2] at p2
      simp only [Out.throw_bind, reduceCtorEq, false_iff, not_and]
      intro h
      exact absurd (p2.mpr fun w hw => (columns_ok w0 w (s1 w hw)).mpr (wid w (h w hw))) (by simp)
    | ub =>
      rw [e2] at p2
      simp only [Out.ub_bind, reduceCtorEq, false_iff, not_and]
      intro h
      exact absurd (p2.mpr fun w hw => (columns_ok w0 w (s1 w hw)).mpr (wid w (h w hw))) (by simp)
    | ok _ =>
      have s2 := fun w hw => (columns_ok w0 w (s1 w hw)).mp (p2.mp e2 w hw)
      simp only [Out.ok_bind]
      cases e3 : pass (headings w0) os with
      | throw =>
        rw [e3] at p3
        simp only [Out.throw_bind, reduceCtorEq, false_iff, not_and]
        intro h
        exact absurd (p3.mpr fun w hw => (headings_ok w0 w (s2 w hw)).mpr (h w hw)) (by simp)
      | ub =>
        rw [e3] at p3
        simp only [Out.ub_bind, reduceCtorEq, false_iff, not_and]
        intro h
        exact absurd (p3.mpr fun w hw => (headings_ok w0 w (s2 w hw)).mpr (h w hw)) (by simp)
      | ok _ =>
        have s3 : ∀ w ∈ os, heads w = heads w0 := fun w hw =>
          (headings_ok w0 w (s2 w hw)).mp (p3.mp e3 w hw)
        simp only [Out.ok_bind]
        rw [c]
        exact ⟨fun h => ⟨s3, h⟩, fun h => h.2⟩

/-- **C202, part.** The check passes if and only if every selected output has a row for each reaction cell. Missing: that the
headings agree, which the code does not test without MPI (`mismatch_accepted`). -/
theorem check_partial (chem : Int) (w0 : W) (ws : List W) (hw : ws ≠ []) (hd : Defined (keys w0) (w0 :: ws)) :
    check true mpiTasks chem (w0 :: ws) (keys w0) = .ok () ↔ ∀ u ∈ keys w0, RowsFit chem (w0 :: ws) u := by
  rw [check_compares mpiTasks chem w0 ws hw hd]
  simp [mpiTasks]

/-- With a loop over all threads the check would do what its messages say. -/
theorem check_repaired (chem : Int) (w0 : W) (ws : List W) (hw : ws ≠ []) (hd : Defined (keys w0) (w0 :: ws)) :
    check true (ws.length + 1) chem (w0 :: ws) (keys w0) = .ok () ↔
      (∀ w ∈ ws, heads w = heads w0) ∧ ∀ u ∈ keys w0, RowsFit chem (w0 :: ws) u := by
  rw [check_compares (ws.length + 1) chem w0 ws hw hd]
  simp

/-! ## Concrete cases -/

theorem rows_missing (u : Int) (w : W) (hf : find w u = none) : ∀ ws : List W, w ∈ ws → rows u ws = .ub := by
  intro ws
  induction ws with
  | nil => intro h; cases h
  | cons v ws ih =>
    intro h
    unfold rows
    cases hv : find v u with
    | none => rfl
    | some t =>
      have : w ∈ ws := by
        rcases List.mem_cons.mp h with rfl | h
        · rw [hf] at hv; cases hv
        · exact h
      dsimp only
      rw [ih this]
      rfl

/-- **C202, violated.** If a worker lacks the first selected output of the first worker, the check, which is made to find such
differences, uses the end of the map. -/
theorem missing_undefined (chem : Int) (w0 : W) (ws : List W) (hw : ws ≠ []) (h0 : w0 ≠ []) (u : Int) (us : List Int) (w : W)
    (hm : w ∈ w0 :: ws) (hf : find w u = none) : check true mpiTasks chem (w0 :: ws) (u :: us) = .ub := by
  obtain ⟨a, w0', rfl⟩ := List.exists_cons_of_ne_nil h0
  obtain ⟨b, ws', rfl⟩ := List.exists_cons_of_ne_nil hw
  simp [check, mpiTasks, pass, count, rows_missing u w hf _ hm]

namespace Demo

/-- Two columns, one row. -/
def two : Table := ⟨1, [['a'], ['b']], [[.dbl 1], [.dbl 2]], [(['a'], 0), (['b'], 1)]⟩
/-- One column, one row, as when the program of `USER_PUNCH` punches less in the other cells. -/
def one : Table := ⟨1, [['a']], [[.dbl 3]], [(['a'], 0)]⟩

/-- **C202, violated.** Workers with different columns pass; `GetSelectedOutput` then reads behind the end of the values of the
second. The hypotheses of `check_partial` are met. -/
theorem mismatch_accepted :
    Defined (keys [((1 : Int), two)]) [[(1, two)], [(1, one)]] ∧ heads [(1, two)] ≠ heads [(1, one)] ∧
    check true mpiTasks 2 [[(1, two)], [(1, one)]] (keys [((1 : Int), two)]) = .ok () ∧
    check true 2 2 [[(1, two)], [(1, one)]] (keys [((1 : Int), two)]) = .throw ∧
    getSelectedOutput 2 [[0], [1]] [[(1, two)], [(1, one)]] 1 [] = .ub := by
  refine ⟨?_, by decide, by decide +kernel, by decide +kernel, by decide +kernel⟩
  intro u hu w hw
  simp only [keys, List.map_cons, List.map_nil, List.mem_singleton] at hu
  subst hu
  simp only [List.mem_cons, List.not_mem_nil, or_false] at hw
  rcases hw with rfl | rfl
  · exact ⟨two, by decide +kernel, by decide⟩
  · exact ⟨one, by decide +kernel, by decide⟩

/-- **C202, violated.** A selected output without columns is refused whatever the number of cells: each worker counts as minus one
row. -/
theorem no_columns_refused (chem : Nat) :
    check true mpiTasks chem [[(1, Table.new)], [(1, Table.new)]] [1] = .throw := by
  have h : rows 1 [[(1, Table.new)], [(1, Table.new)]] = .ok (-2) := by decide +kernel
  simp only [check, mpiTasks, count, List.take, List.length, h]
  have : (-2 : Int) ≠ chem := by omega
  simp [pass, this]

/-- The second worker has no selected output. -/
theorem missing_case : check true mpiTasks 1 [[(1, two)], []] [1] = .ub :=
  missing_undefined 1 _ _ (by decide) (by decide) 1 [] [] (by simp) (by decide +kernel)

end Demo

end Verif.Agree
