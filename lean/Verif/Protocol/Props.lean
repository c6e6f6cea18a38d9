import Verif.Protocol.Lemmas
import Verif.Conc.Repeat

/-! # Setting component by component, cached concentrations, and the missing-solution check
(C20, C21, C22) -/

namespace Verif.Protocol

open Verif.Grid

/-- What a user can see of the module afterwards: the staged values are left out. -/
structure View (M : Type) where
  mod       : M
  cur       : List ℚ
  spCur     : List ℚ
  needCheck : Bool

/-- View of a state. -/
def view {M : Type} (s : PState M) : View M := ⟨s.mod, s.cur, s.spCur, s.needCheck⟩

/-- Two calls give the same return code and leave the same visible state, or both throw, or both
are undefined. -/
def SameView {M : Type} (x y : Out (IRM × PState M)) : Prop :=
  (x >>= fun r => Out.ok (r.1, view r.2)) = (y >>= fun r => Out.ok (r.1, view r.2))

/-- `SetIthConcentration` for every entry of a list of calls. -/
def setAll {M : Type} (s : PState M) (calls : List (Nat × List ℚ)) : Out (PState M) :=
  calls.foldlM (fun s p => do
    let r ← setIth s (p.1 : Int) p.2
    .ok r.2) s

/-- `c` is the last value given for component `i`. -/
def LastVal (calls : List (Nat × List ℚ)) (i : Nat) (c : List ℚ) : Prop :=
  ∃ pre post, calls = pre ++ (i, c) :: post ∧ ∀ p ∈ post, p.1 ≠ i

/-- Calls with valid component numbers and vectors of one value per grid cell. -/
def ValidCalls (nxyz n : Nat) (calls : List (Nat × List ℚ)) : Prop :=
  ∀ p ∈ calls, p.1 < n ∧ p.2.length = nxyz

/-- The array `a` holds the last values given. -/
def Assembled (nxyz n : Nat) (calls : List (Nat × List ℚ)) (a : List ℚ) : Prop :=
  a.length = nxyz * n ∧ ∀ i c j, LastVal calls i c → j < nxyz → a[i * nxyz + j]? = c[j]?

/-- The staging area after `done`. -/
def Holds (nxyz n : Nat) (st : Stage) (done : List (Nat × List ℚ)) : Prop :=
  (∀ i, i ∈ st.set ↔ ∃ c, (i, c) ∈ done) ∧ (done ≠ [] → Assembled nxyz n done st.vals)

theorem stageIth_step {nxyz n : Nat} {st : Stage} {done : List (Nat × List ℚ)} {i : Nat}
    {c : List ℚ} (hi : i < n) (hc : c.length = nxyz) (h : Holds nxyz n st done) :
    ∃ st', stageIth nxyz n st (i : Int) c = .ok (.ok, st') ∧
      Holds nxyz n st' (done ++ [(i, c)]) := by
  obtain ⟨hset, hvals⟩ := h
  let st0 : Stage := if st.vals.length ≠ nxyz * n then
      { vals := List.replicate (nxyz * n) 0, set := ∅ } else st
  have hst0 : st0.vals.length = nxyz * n := by
    simp only [st0]
    split
    · simp
    · rename_i h; exact not_not.mp h
  have hkeep : done ≠ [] → st0 = st := by
    intro hne
    have := (hvals hne).1
    simp [st0, this]
  have hset0 : ∀ k, k ∈ st0.set ↔ ∃ c, (k, c) ∈ done := by
    intro k
    by_cases hne : done = []
    · subst hne
      have he : st.set = ∅ := by
        ext x; simp [hset x]
      have : st0.set = ∅ := by simp only [st0]; split <;> simp [he]
      simp [this]
    · rw [hkeep hne]; exact hset k
  obtain ⟨v', w1, w2, w3⟩ := writeSlice_spec (v := st0.vals) hi (by omega : nxyz ≤ c.length) hst0
  refine ⟨{ vals := v', set := insert i st0.set }, ?_, ?_, fun _ => ⟨w2, ?_⟩⟩
  · have hcond : (0 : Int) ≤ (i : Int) ∧ (i : Int) < (n : Int) := by omega
    simp only [stageIth, hcond, and_self, if_true, Int.toNat_natCast]
    show (do
      let v ← writeSlice nxyz i c st0.vals
      Out.ok (IRM.ok, ({ vals := v, set := insert i st0.set } : Stage))) = _
    rw [w1]; rfl
  · intro k
    simp only [Finset.mem_insert, hset0 k, List.mem_append, List.mem_singleton, Prod.mk.injEq]
    constructor
    · rintro (rfl | ⟨c', h⟩)
      · exact ⟨c, .inr ⟨rfl, rfl⟩⟩
      · exact ⟨c', .inl h⟩
    · rintro ⟨c', h | ⟨rfl, _⟩⟩
      · exact .inr ⟨c', h⟩
      · exact .inl rfl
  · rintro k d j ⟨pre, post, he, hno⟩ hj
    simp only
    by_cases hpost : post = []
    · subst hpost
      have := List.append_inj_right' he rfl
      simp only [List.cons.injEq, Prod.mk.injEq, and_true] at this
      obtain ⟨rfl, rfl⟩ := this
      rw [w3 i j hi hj, if_pos rfl]
    · obtain ⟨post', q, rfl⟩ : ∃ post' q, post = post' ++ [q] :=
        ⟨post.dropLast, post.getLast hpost, (List.dropLast_append_getLast hpost).symm⟩
      have he' : done ++ [(i, c)] = (pre ++ (k, d) :: post') ++ [q] := by
        rw [he]; simp
      obtain ⟨hd, hq⟩ := List.append_inj' he' rfl
      simp only [List.cons.injEq, and_true] at hq
      have hki : k ≠ i := by
        have := hno q (by simp)
        rw [← hq] at this
        exact fun h => this h.symm
      have hdone : done ≠ [] := by rw [hd]; simp
      have hlast : LastVal done k d :=
        ⟨pre, post', hd, fun p hp => hno p (List.mem_append_left _ hp)⟩
      have hA := (hvals hdone).2 k d j hlast hj
      by_cases hkn : k < n
      · rw [w3 k j hkn hj, if_neg hki, hkeep hdone]
        exact hA
      · -- an entry beyond the array
        have h1 : v'.length ≤ k * nxyz + j := by
          rw [w2, Nat.mul_comm]
          exact Nat.le_trans (Nat.mul_le_mul_right _ (by omega)) (Nat.le_add_right _ _)
        have h2 : st.vals.length ≤ k * nxyz + j := by
          rw [(hvals hdone).1, Nat.mul_comm]
          exact Nat.le_trans (Nat.mul_le_mul_right _ (by omega)) (Nat.le_add_right _ _)
        rw [List.getElem?_eq_none h1, ← hA, List.getElem?_eq_none h2]

theorem setAll_spec {M : Type} : ∀ (calls : List (Nat × List ℚ)) (s : PState M)
    (done : List (Nat × List ℚ)), ValidCalls s.nxyz s.nc calls →
    Holds s.nxyz s.nc s.stage done →
    ∃ st, setAll s calls = .ok { s with stage := st } ∧ Holds s.nxyz s.nc st (done ++ calls)
  | [], s, done, _, h => ⟨s.stage, rfl, by simpa using h⟩
  | (i, c) :: calls, s, done, hv, h => by
    obtain ⟨hi, hc⟩ := hv (i, c) List.mem_cons_self
    obtain ⟨st, h1, h2⟩ := stageIth_step hi hc h
    obtain ⟨st', h3, h4⟩ := setAll_spec calls { s with stage := st } (done ++ [(i, c)])
      (fun p hp => hv p (List.mem_cons_of_mem _ hp)) h2
    refine ⟨st', ?_, by simpa using h4⟩
    unfold setAll at h3 ⊢
    rw [List.foldlM_cons]
    simp only [setIth, h1, Out.ok_bind]
    exact h3

theorem holds_nil (nxyz n : Nat) {st : Stage} (h : st.set = ∅) : Holds nxyz n st [] :=
  ⟨fun i => by simp [h], fun h => absurd rfl h⟩

theorem finish_view {M : Type} (o : Ops M) {s t : PState M} (h1 : s.mod = t.mod)
    (h2 : s.speciesOn = t.speciesOn) (h3 : s.spCur = t.spCur) (h4 : s.needCheck = t.needCheck) :
    SameView (finish o s) (finish o t) := by
  unfold SameView finish
  rw [h1]
  cases o.run t.mod with
  | throw => rfl
  | ub => rfl
  | ok r =>
    simp only [Out.ok_bind]
    cases o.getConc r.1 with
    | throw => rfl
    | ub => rfl
    | ok c =>
      simp only [Out.ok_bind, h2, h3]
      split
      · cases o.getSpecies c.2 with
        | throw => rfl
        | ub => rfl
        | ok sp => simp [view, h4]
      · simp [view, h4]

theorem eq_of_slices {nxyz n : Nat} {a b : List ℚ} (ha : a.length = nxyz * n)
    (hb : b.length = nxyz * n)
    (h : ∀ i j, i < n → j < nxyz → a[i * nxyz + j]? = b[i * nxyz + j]?) : a = b := by
  apply List.ext_getElem?
  intro k
  by_cases hk : k < nxyz * n
  · have hpos : 0 < nxyz := by
      rcases Nat.eq_zero_or_pos nxyz with h0 | h0
      · rw [h0, Nat.zero_mul] at hk; omega
      · exact h0
    have h1 : k / nxyz < n := Nat.div_lt_of_lt_mul hk
    have h2 := h (k / nxyz) (k % nxyz) h1 (Nat.mod_lt _ hpos)
    have h3 : k / nxyz * nxyz + k % nxyz = k := by
      rw [Nat.mul_comm]; exact Nat.div_add_mod k nxyz
    rwa [h3] at h2
  · rw [List.getElem?_eq_none (by omega), List.getElem?_eq_none (by omega)]

/-- Every component has a last value when every component was given one. -/
theorem exists_last : ∀ (calls : List (Nat × List ℚ)) (i : Nat), (∃ c, (i, c) ∈ calls) →
    ∃ c, LastVal calls i c
  | [], i, ⟨c, h⟩ => by simp at h
  | p :: calls, i, ⟨c, h⟩ => by
    by_cases hin : ∃ c, (i, c) ∈ calls
    · obtain ⟨c', pre, post, he, hno⟩ := exists_last calls i hin
      exact ⟨c', p :: pre, post, by rw [he]; rfl, hno⟩
    · rcases List.mem_cons.mp h with rfl | h
      · exact ⟨c, [], calls, rfl, fun q hq he => hin ⟨q.2, by rw [← he]; exact hq⟩⟩
      · exact absurd ⟨c, h⟩ hin

/-- C20, first part. Setting every component one by one, in any order and with repetitions, and
then running gives what setting the assembled array and running gives. -/
theorem ith_equals_set {M : Type} (o : Ops M) (s : PState M) (hs : s.stage.set = ∅)
    (hnc : 0 < s.nc) (calls : List (Nat × List ℚ)) (hv : ValidCalls s.nxyz s.nc calls)
    (hall : ∀ i, i < s.nc → ∃ c, (i, c) ∈ calls) (a : List ℚ)
    (ha : Assembled s.nxyz s.nc calls a) :
    SameView (setAll s calls >>= runCells o) (setConcentrations o s a >>= runCells o) := by
  obtain ⟨st, h1, h2⟩ := setAll_spec calls s [] hv (holds_nil _ _ hs)
  rw [List.nil_append] at h2
  have hset : st.set = Finset.range s.nc := by
    ext i
    rw [h2.1 i, Finset.mem_range]
    exact ⟨fun ⟨c, hc⟩ => (hv _ hc).1, hall i⟩
  have hcalls : calls ≠ [] := by
    obtain ⟨c, hc⟩ := hall 0 hnc
    rintro rfl
    simp at hc
  have hvals : st.vals = a := by
    refine eq_of_slices (h2.2 hcalls).1 ha.1 (fun i j hi hj => ?_)
    obtain ⟨c, hc⟩ := exists_last calls i (hall i hi)
    rw [(h2.2 hcalls).2 i c j hc hj, ha.2 i c j hc hj]
  rw [h1]
  simp only [Out.ok_bind]
  have hcard : st.set.card = s.nc := by rw [hset]; simp
  have happ : ∀ m, applyStage s.nc st o.setConc m = o.setConc m a := by
    intro m
    simp only [applyStage, hcard, hvals, hnc, if_true, ne_eq, not_true_eq_false,
      if_false]
  have happ0 : ∀ m : M, applyStage s.nc s.stage o.setConc m = .ok m := by
    intro m; simp [applyStage, hs]
  unfold SameView setConcentrations runCells
  simp only [happ]
  cases o.setConc s.mod a with
  | throw => rfl
  | ub => rfl
  | ok m =>
    simp only [Out.ok_bind, happ0]
    cases applyStage s.nsp s.spStage o.setSpecies m with
    | throw => rfl
    | ub => rfl
    | ok m2 =>
      simp only [Out.ok_bind]
      split
      · rfl
      · exact finish_view o rfl rfl rfl rfl

/-- C20, second part. If some but not all components were set, `RunCells` fails (by an exception
that leaves the call). -/
theorem ith_subset_fails {M : Type} (o : Ops M) (s : PState M) (hs : s.stage.set = ∅)
    (calls : List (Nat × List ℚ)) (hv : ValidCalls s.nxyz s.nc calls) (hne : calls ≠ [])
    (hmiss : ∃ i, i < s.nc ∧ ∀ c, (i, c) ∉ calls) :
    (setAll s calls >>= runCells o) = .throw := by
  obtain ⟨st, h1, h2⟩ := setAll_spec calls s [] hv (holds_nil _ _ hs)
  rw [List.nil_append] at h2
  have hpos : 0 < st.set.card := by
    rw [Finset.card_pos]
    match calls, hne with
    | (i, c) :: _, _ => exact ⟨i, (h2.1 i).mpr ⟨c, List.mem_cons_self⟩⟩
  have hlt : st.set.card ≠ s.nc := by
    obtain ⟨i, hi, hno⟩ := hmiss
    intro he
    have hsub : st.set ⊆ Finset.range s.nc := by
      intro k hk
      obtain ⟨c, hc⟩ := (h2.1 k).mp hk
      exact Finset.mem_range.mpr (hv _ hc).1
    have := Finset.eq_of_subset_of_card_le hsub (by simp [he])
    have hi' : i ∈ st.set := by rw [this]; exact Finset.mem_range.mpr hi
    obtain ⟨c, hc⟩ := (h2.1 i).mp hi'
    exact hno c hc
  rw [h1]
  simp only [Out.ok_bind, runCells, applyStage, gt_iff_lt, hpos, if_true, ne_eq, hlt,
    not_false_eq_true, Out.throw_bind]

/-- C20, third part as stated: once `RunCells` has returned, values staged before it have no
effect on a later `SetConcentrations` and `RunCells`. -/
def NoLeak : Prop :=
  ∀ (M : Type) (o : Ops M) (s s' : PState M) (r : IRM) (a : List ℚ),
    runCells o s = .ok (r, s') →
    SameView (setConcentrations o s' a >>= runCells o)
      (setConcentrations o { s' with stage := ⟨[], ∅⟩, spStage := ⟨[], ∅⟩ } a >>= runCells o)

theorem runCells_unstaged {M : Type} (o : Ops M) (s : PState M) (h1 : s.stage.set = ∅)
    (h2 : s.spStage.set = ∅) :
    SameView (runCells o s) (runCells o { s with stage := ⟨[], ∅⟩, spStage := ⟨[], ∅⟩ }) := by
  have e1 : ∀ (n : Nat) (f : M → List ℚ → Out M) (m : M), applyStage n s.stage f m = .ok m := by
    intro n f m; simp [applyStage, h1]
  have e2 : ∀ (n : Nat) (f : M → List ℚ → Out M) (m : M), applyStage n s.spStage f m = .ok m := by
    intro n f m; simp [applyStage, h2]
  have e3 : ∀ (n : Nat) (f : M → List ℚ → Out M) (m : M),
      applyStage n ⟨[], ∅⟩ f m = .ok m := by
    intro n f m; simp [applyStage]
  unfold runCells
  simp only [e1, e2, e3, Out.ok_bind]
  split
  · rfl
  · exact finish_view o rfl rfl rfl rfl

/-- The sets of staged components are empty after a run that got past the check. -/
theorem finish_clears {M : Type} (o : Ops M) (s s' : PState M) (r : IRM)
    (h : finish o s = .ok (r, s')) : s'.stage.set = ∅ ∧ s'.spStage.set = ∅ := by
  unfold finish at h
  cases h1 : o.run s.mod with
  | throw => rw [h1] at h; simp at h
  | ub => rw [h1] at h; simp at h
  | ok q =>
    rw [h1] at h
    simp only [Out.ok_bind] at h
    cases h2 : o.getConc q.1 with
    | throw => rw [h2] at h; simp at h
    | ub => rw [h2] at h; simp at h
    | ok c =>
      rw [h2] at h
      simp only [Out.ok_bind] at h
      cases h3 : (if s.speciesOn then o.getSpecies c.2 else Out.ok s.spCur) with
      | throw => rw [h3] at h; simp at h
      | ub => rw [h3] at h; simp at h
      | ok sp =>
        rw [h3] at h
        simp only [Out.ok_bind, Out.ok.injEq, Prod.mk.injEq] at h
        rw [← h.2]
        exact ⟨rfl, rfl⟩

theorem runCells_cases {M : Type} (o : Ops M) (s s' : PState M) (r : IRM)
    (h : runCells o s = .ok (r, s')) :
    (∃ m1 m2, applyStage s.nc s.stage o.setConc s.mod = .ok m1 ∧
      applyStage s.nsp s.spStage o.setSpecies m1 = .ok m2 ∧
      ((s.needCheck = true ∧ o.missing m2 = true ∧ r = .fail ∧
          s' = { s with mod := m2, needCheck := false }) ∨
        (¬ (s.needCheck = true ∧ o.missing m2 = true) ∧
          finish o { s with mod := m2, needCheck := false } = .ok (r, s')))) := by
  unfold runCells at h
  cases h1 : applyStage s.nc s.stage o.setConc s.mod with
  | throw => rw [h1] at h; simp at h
  | ub => rw [h1] at h; simp at h
  | ok m1 =>
    rw [h1] at h
    simp only [Out.ok_bind] at h
    cases h2 : applyStage s.nsp s.spStage o.setSpecies m1 with
    | throw => rw [h2] at h; simp at h
    | ub => rw [h2] at h; simp at h
    | ok m2 =>
      rw [h2] at h
      simp only [Out.ok_bind] at h
      refine ⟨m1, m2, rfl, h2, ?_⟩
      split at h
      · rename_i hc
        simp only [Out.ok.injEq, Prod.mk.injEq] at h
        exact .inl ⟨hc.1, hc.2, h.1.symm, h.2.symm⟩
      · rename_i hc
        exact .inr ⟨hc, h⟩

/-- C20, third part, where it holds: after a `RunCells` that returned success, or that was not
the one with the missing-solution check. Missing: a `RunCells` that failed in that check keeps
the staged values, see `no_leak_violated`. -/
theorem no_leak_partial {M : Type} (o : Ops M) (s s' : PState M) (r : IRM) (a : List ℚ)
    (h : runCells o s = .ok (r, s')) (hr : r = .ok ∨ s.needCheck = false) :
    SameView (setConcentrations o s' a >>= runCells o)
      (setConcentrations o { s' with stage := ⟨[], ∅⟩, spStage := ⟨[], ∅⟩ } a >>= runCells o) := by
  obtain ⟨m1, m2, _, _, hc⟩ := runCells_cases o s s' r h
  rcases hc with ⟨hn, _, hf, _⟩ | ⟨_, hf⟩
  · rcases hr with hr | hr
    · rw [hf] at hr; simp at hr
    · rw [hn] at hr; simp at hr
  · obtain ⟨e1, e2⟩ := finish_clears o _ s' r hf
    unfold setConcentrations
    simp only
    cases o.setConc s'.mod a with
    | throw => rfl
    | ub => rfl
    | ok m =>
      simp only [Out.ok_bind]
      exact runCells_unstaged o { s' with mod := m } e1 e2

/-! ## A small module for witnesses -/

/-- One cell; the contents are its concentrations and a flag telling whether its solution is
missing. -/
def toy : Ops (List ℚ × Bool) where
  setConc m a := .ok (a, m.2)
  getConc m := .ok (m.1, m)
  setSpecies m _ := .ok m
  getSpecies _ := .ok []
  run m := .ok (m, true)
  missing m := m.2

/-- A fresh protocol state: one cell, two components. -/
def toyState (m : List ℚ × Bool) : PState (List ℚ × Bool) :=
  { nxyz := 1, nc := 2, nsp := 0, speciesOn := false, stage := ⟨[], ∅⟩, spStage := ⟨[], ∅⟩,
    cur := [], spCur := [], needCheck := true, mod := m }

/-- The hypotheses of `ith_equals_set` on a concrete case: component 1 first, then component 0,
then component 1 again. -/
example : (setAll (toyState ([7, 7], false)) [(1, [3]), (0, [2]), (1, [4])] >>= runCells toy
    >>= fun r => Out.ok (r.1, r.2.mod, r.2.cur)) = .ok (.ok, ([2, 4], false), [2, 4]) := by
  decide +kernel

example : ValidCalls 1 2 [(1, [3]), (0, [2]), (1, [4])] ∧
    Assembled 1 2 [(1, [3]), (0, [2]), (1, [4])] [2, 4] := by
  refine ⟨by simp [ValidCalls], rfl, ?_⟩
  rintro i c j ⟨pre, post, he, hno⟩ hj
  have hj0 : j = 0 := by omega
  subst hj0
  match pre, he with
  | [], he =>
    simp at he
    obtain ⟨⟨rfl, rfl⟩, rfl⟩ := he
    exact absurd rfl (hno (1, [4]) (by simp))
  | [_], he =>
    simp at he
    obtain ⟨_, ⟨rfl, rfl⟩, rfl⟩ := he
    rfl
  | [_, _], he =>
    simp at he
    obtain ⟨_, _, ⟨rfl, rfl⟩, rfl⟩ := he
    rfl
  | _ :: _ :: _ :: _, he => simp at he

/-- State after a `RunCells` that failed in its check with all components staged. -/
def leakState : PState (List ℚ × Bool) :=
  { toyState ([2, 4], true) with stage := ⟨[2, 4], {0, 1}⟩, needCheck := false }

/-- C20, third part, is violated: after a `RunCells` that failed because a solution was missing,
the staged values overwrite concentrations set later. -/
theorem no_leak_violated : ¬ NoLeak := by
  intro h
  have := h _ toy { toyState ([7, 7], true) with stage := ⟨[2, 4], {0, 1}⟩ } leakState _ [5, 6] rfl
  unfold SameView at this
  have k1 : (setConcentrations toy leakState [5, 6] >>= runCells toy
      >>= fun r => Out.ok r.2.mod.1) = .ok [2, 4] := rfl
  have k2 : (setConcentrations toy { leakState with stage := ⟨[], ∅⟩, spStage := ⟨[], ∅⟩ } [5, 6]
      >>= runCells toy >>= fun r => Out.ok r.2.mod.1) = .ok [5, 6] := rfl
  have k3 := congrArg (fun x => x >>= fun r => Out.ok r.2.mod.1) this
  simp only [bind_assoc, Out.ok_bind, view] at k3
  simp only [bind_assoc] at k1 k2
  rw [k1, k2] at k3
  simp at k3

/-! ## Cached concentrations (C21) -/

/-- `GetIthConcentration(i)` equals slice `i` of `GetConcentrations`. -/
def GetIthRight {M : Type} (o : Ops M) (s : PState M) : Prop :=
  ∀ (i : Nat) c s', getIth o s (i : Int) = .ok (.ok, c, s') →
    ∃ a m, o.getConc s.mod = .ok (a, m) ∧ ∀ j, j < s.nxyz → c[j]? = a[i * s.nxyz + j]?

/-- Calls a user makes between two reads. -/
inductive Call
  | set (a : List ℚ)
  | run

/-- Effect of one call. -/
def exec {M : Type} (o : Ops M) (s : PState M) : Call → Out (PState M)
  | .set a => setConcentrations o s a
  | .run => do
    let r ← runCells o s
    .ok r.2

/-- C21 as stated, for histories of setting and running. -/
def GetIthIsSlice : Prop :=
  ∀ (M : Type) (o : Ops M) (s s' : PState M) (h : List Call), s.cur = [] →
    h.foldlM (exec o) s = .ok s' → GetIthRight o s'

/-- C21 is violated: after `RunCells` and `SetConcentrations` the cached values are returned. -/
theorem getIth_slice_violated : ¬ GetIthIsSlice := by
  intro h
  have := h _ toy (toyState ([7, 7], false))
    { toyState ([1, 2], false) with cur := [7, 7], needCheck := false }
    [.run, .set [1, 2]] rfl rfl
  obtain ⟨a, m, h1, h2⟩ := this 0 [7] _ rfl
  simp [toy, toyState] at h1 h2
  rw [← h1.1] at h2
  simp at h2

/-- Chemistry runs leave modules on which `GetConcentrations` can be repeated with the same
result; the array returned has the documented size. `Conc.getConcentrations_repeat` and
`conc_stable` show that this is so for the real `GetConcentrations`. -/
structure Stable {M : Type} (o : Ops M) (nxyz nc : Nat) (P : M → Prop) : Prop where
  run   : ∀ m m' b, o.run m = .ok (m', b) → P m'
  again : ∀ m a m', P m → o.getConc m = .ok (a, m') → ∃ m'', o.getConc m' = .ok (a, m'')
  size  : ∀ m a m', o.getConc m = .ok (a, m') → a.length = nxyz * nc

/-- C21, the part that holds: directly after a `RunCells` that got past its check, and whenever
the cache does not have the current size (the first read, or after a change of the number of
components), every read returns the right slice. Missing: reads after `SetConcentrations` or
other changes without a `RunCells` in between, see `getIth_slice_violated`. -/
theorem getIth_slice_partial {M : Type} (o : Ops M) (s s' : PState M) (P : M → Prop)
    (hst : Stable o s.nxyz s.nc P)
    (h : (∃ r, runCells o s = .ok (r, s') ∧ (r = .ok ∨ s.needCheck = false)) ∨
      (s' = s ∧ s.cur.length ≠ s.nxyz * s.nc)) :
    GetIthRight o s' := by
  intro i c s2 hg
  unfold getIth at hg
  split at hg
  swap
  · simp at hg
  rename_i hi
  rcases h with ⟨r, hrun, hr⟩ | ⟨rfl, hcur⟩
  · obtain ⟨m1, m2, _, _, hc⟩ := runCells_cases o s s' r hrun
    rcases hc with ⟨hn, _, hf, _⟩ | ⟨_, hf⟩
    · rcases hr with hr | hr
      · rw [hf] at hr; simp at hr
      · rw [hn] at hr; simp at hr
    · -- the cache was just refreshed
      unfold finish at hf
      simp only at hf
      cases h1 : o.run m2 with
      | throw => rw [h1] at hf; simp at hf
      | ub => rw [h1] at hf; simp at hf
      | ok q =>
        rw [h1] at hf
        simp only [Out.ok_bind] at hf
        cases h2 : o.getConc q.1 with
        | throw => rw [h2] at hf; simp at hf
        | ub => rw [h2] at hf; simp at hf
        | ok a =>
          rw [h2] at hf
          simp only [Out.ok_bind] at hf
          cases h3 : (if s.speciesOn then o.getSpecies a.2 else Out.ok s.spCur) with
          | throw => rw [h3] at hf; simp at hf
          | ub => rw [h3] at hf; simp at hf
          | ok sp =>
            rw [h3] at hf
            simp only [Out.ok_bind, Out.ok.injEq, Prod.mk.injEq] at hf
            obtain ⟨_, rfl⟩ := hf
            have hsz := hst.size _ _ _ (show o.getConc q.1 = .ok (a.1, a.2) from h2)
            simp only [hsz, ne_eq, not_true_eq_false, if_false, Out.ok_bind] at hg
            obtain ⟨m', hm'⟩ := hst.again _ _ _ (hst.run _ _ _ h1) (show o.getConc q.1 = .ok (a.1, a.2) from h2)
            obtain ⟨c', r1, _, r3⟩ := readSlice_spec (nxyz := s.nxyz) (n := s.nc) (i := i)
              (by simp only at hi; omega) hsz
            simp only [Int.toNat_natCast, r1, Out.ok_bind, Out.ok.injEq, Prod.mk.injEq] at hg
            obtain ⟨_, rfl, _⟩ := hg
            exact ⟨a.1, m', hm', r3⟩
  · simp only [ne_eq, hcur, not_false_eq_true, if_true] at hg
    cases h2 : o.getConc s'.mod with
    | throw => rw [h2] at hg; simp at hg
    | ub => rw [h2] at hg; simp at hg
    | ok a =>
      rw [h2] at hg
      simp only [Out.ok_bind] at hg
      have hsz := hst.size _ _ _ (show o.getConc s'.mod = .ok (a.1, a.2) from h2)
      obtain ⟨c', r1, _, r3⟩ := readSlice_spec (nxyz := s'.nxyz) (n := s'.nc) (i := i)
        (by omega) hsz
      simp only [Int.toNat_natCast, r1, Out.ok_bind, Out.ok.injEq, Prod.mk.injEq] at hg
      obtain ⟨_, rfl, _⟩ := hg
      exact ⟨a.1, a.2, rfl, r3⟩

/-! ## The missing-solution check (C22) -/

/-- The protocol on the module of `Verif.Conc`, with a run that leaves the solutions alone. -/
def concOps : Ops Conc.CState where
  setConc := Conc.setConcentrations
  getConc := Conc.getConcentrations
  setSpecies m _ := .ok m
  getSpecies _ := .ok []
  run m := .ok (m, true)
  missing m := (ownedCells m.map.ranges).any (fun p => (m.sol p.1 p.2).isNone)

open Classical in
/-- The hypothesis of `getIth_slice_partial` for the real getter: a run that leaves well-formed
totals, and a module of fixed size. -/
theorem conc_stable (run : Conc.CState → Out (Conc.CState × Bool)) (g : List Int)
    (es : List NameDouble.Name) (nxyz nc : Nat)
    (hrun : ∀ m m' b, run m = .ok (m', b) → Conc.GoodTotals m') :
    Stable { concOps with
      run := run,
      getConc := fun m => if Conc.Ready g m es ∧ m.map.nxyz = nxyz ∧ m.comps.length = nc then
        Conc.getConcentrations m else .throw } nxyz nc Conc.GoodTotals where
  run := hrun
  again m a m' hP h := by
    simp only at h ⊢
    split at h
    · rename_i hr
      obtain ⟨⟨s'', h1⟩, h2, h3, h4⟩ := Conc.getConcentrations_repeat hP h
      have hr' : Conc.Ready g m' es ∧ m'.map.nxyz = nxyz ∧ m'.comps.length = nc := by
        rw [h2]
        obtain ⟨⟨a1, a2, a3, a4, a5, a6, a7, a8, a9, a10, a11, a12, a13, a14⟩, e1, e2⟩ := hr
        refine ⟨⟨a1, a2, a3, a4, a5, a6, a7, a8, a9, a10, a11, a12, a13, fun n j ho => ?_⟩,
          e1, e2⟩
        obtain ⟨x, hx⟩ := a14 n j ho
        obtain ⟨y, hy, _⟩ := h4 n j x ho hx
        exact ⟨y, hy⟩
      rw [if_pos hr']
      exact ⟨s'', h1⟩
    · simp at h
  size m a m' h := by
    simp only at h
    split at h
    · rename_i hr
      obtain ⟨c, s', h1, h2, _⟩ := Conc.getConcentrations_grid hr.1
      rw [h] at h1
      simp only [Out.ok.injEq, Prod.mk.injEq] at h1
      rw [h1.1, h2, hr.2.1, hr.2.2]
    · simp at h

/-- C22 as stated: as long as a solution is missing, every `RunCells` returns a failure code. -/
def MissingAlwaysFails {M : Type} (o : Ops M) : Prop :=
  ∀ (s : PState M) (k : Nat), s.needCheck = true → s.stage.set = ∅ → s.spStage.set = ∅ →
    o.missing s.mod = true → ∀ s', (List.replicate k Call.run).foldlM (exec o) s = .ok s' →
    o.missing s'.mod = true → ∃ s'', runCells o s' = .ok (.fail, s'')

/-- C22, the part that holds: the first `RunCells` of a module fails when a solution is missing,
and leaves the module as it was. Missing: all later calls, see `missing_fails_violated` and
`later_runs_unchecked`. -/
theorem missing_fails_partial {M : Type} (o : Ops M) (s : PState M) (hn : s.needCheck = true)
    (h1 : s.stage.set = ∅) (h2 : s.spStage.set = ∅) (hm : o.missing s.mod = true) :
    runCells o s = .ok (.fail, { s with needCheck := false }) := by
  have e1 : applyStage s.nc s.stage o.setConc s.mod = .ok s.mod := by simp [applyStage, h1]
  have e2 : applyStage s.nsp s.spStage o.setSpecies s.mod = .ok s.mod := by
    simp [applyStage, h2]
  simp only [runCells, e1, e2, Out.ok_bind, hn, hm, and_self, if_true]

/-- After the first call nothing is checked: the result does not depend on the check. -/
theorem later_runs_unchecked {M : Type} (o : Ops M) (s s' : PState M) (r : IRM)
    (h : runCells o s = .ok (r, s')) (miss : M → Bool) :
    s'.needCheck = false ∧ runCells { o with missing := miss } s' = runCells o s' := by
  have hn : s'.needCheck = false := by
    obtain ⟨m1, m2, _, _, hc⟩ := runCells_cases o s s' r h
    rcases hc with ⟨_, _, _, rfl⟩ | ⟨_, hf⟩
    · rfl
    · unfold finish at hf
      simp only at hf
      cases h1 : o.run m2 with
      | throw => rw [h1] at hf; simp at hf
      | ub => rw [h1] at hf; simp at hf
      | ok q =>
        rw [h1] at hf
        simp only [Out.ok_bind] at hf
        cases h2 : o.getConc q.1 with
        | throw => rw [h2] at hf; simp at hf
        | ub => rw [h2] at hf; simp at hf
        | ok a =>
          rw [h2] at hf
          simp only [Out.ok_bind] at hf
          cases h3 : (if s.speciesOn then o.getSpecies a.2 else Out.ok s.spCur) with
          | throw => rw [h3] at hf; simp at hf
          | ub => rw [h3] at hf; simp at hf
          | ok sp =>
            rw [h3] at hf
            simp only [Out.ok_bind, Out.ok.injEq, Prod.mk.injEq] at hf
            rw [← hf.2]
  refine ⟨hn, ?_⟩
  unfold runCells finish
  simp only [hn, Bool.false_eq_true, false_and, if_false]

/-- The module of `Conc.demo` without its solution. -/
def missingState : PState Conc.CState :=
  { nxyz := 3, nc := 5, nsp := 0, speciesOn := false, stage := ⟨[], ∅⟩, spStage := ⟨[], ∅⟩,
    cur := [], spCur := [], needCheck := true, mod := { Conc.demo with sol := fun _ _ => none } }

/-- C22 is violated: the second `RunCells` goes on without the solution and dereferences a null
pointer when it reads the concentrations. -/
theorem missing_fails_violated : ¬ MissingAlwaysFails concOps := by
  intro h
  have h1 := missing_fails_partial concOps missingState rfl rfl rfl rfl
  obtain ⟨s'', h2⟩ := h missingState 1 rfl rfl rfl rfl { missingState with needCheck := false }
    (by
      show (do
        let s1 ← (do
          let r ← runCells concOps missingState
          Out.ok r.2)
        Out.ok s1) = _
      rw [h1]; rfl) rfl
  have h3 : (match runCells concOps { missingState with needCheck := false } with
      | .ub => true
      | _ => false) = true := rfl
  rw [h2] at h3
  simp at h3

end Verif.Protocol
