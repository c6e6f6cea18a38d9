import Verif.Registry.Spec

/-! # Lemmas on the registry -/

namespace Verif.Registry

open Verif.OMap

theorem sizeT_nat (i : Nat) (h : i < 2 ^ 64) : sizeT (i : Int) = i := by
  unfold sizeT
  rw [Int.emod_eq_of_lt (by omega) (by exact_mod_cast h)]
  simp

theorem sizeT_neg (id : Int) (h : id < 0) (hlo : -2 ^ 31 ≤ id) : 2 ^ 63 ≤ sizeT id := by
  unfold sizeT
  omega

theorem toInt_small (i : Nat) (h : i < 2 ^ 31) : toInt i = i := by
  unfold toInt
  have : i % 2 ^ 32 = i := Nat.mod_eq_of_lt (by omega)
  rw [this, if_pos h]

theorem withLock_ok {α : Type} {s : Reg} {body : Reg → Res (Reg × α)} {p : Reg × α}
    (h : withLock s body = .ok p) :
    s.locked = false ∧ p.1.locked = false ∧
      ∃ q, body { s with locked := true } = .ok q ∧ p = ({ q.1 with locked := false }, q.2) := by
  unfold withLock at h
  cases hl : s.locked with
  | true => rw [hl] at h; simp at h
  | false =>
    rw [hl] at h
    simp only [Bool.false_eq_true, if_false] at h
    cases hb : body { s with locked := true } with
    | ok q =>
      rw [hb, Res.ok_bind] at h
      simp only [Res.ok.injEq] at h
      subst h
      exact ⟨rfl, rfl, q, rfl, rfl⟩
    | hang => rw [hb] at h; simp at h
    | ub => rw [hb] at h; simp at h

theorem dtor_eq {s : Reg} (h : s.locked = false) (i : Nat) :
    dtor s i = .ok ({ s with inst := erase s.inst i }, ()) := by
  simp [dtor, withLock, h]

theorem ctor_eq {s : Reg} (h : s.locked = false) (o : Obj) :
    ctor s o = .ok ({ s with next := (s.next + 1) % 2 ^ 64, inst := OMap.insert s.inst s.next o },
      s.next) := by
  simp [ctor, withLock, h]

theorem getInstance_eq {s : Reg} (h : s.locked = false) (id : Int) :
    getInstance s id = .ok (s, find s.inst (sizeT id)) := by
  simp only [getInstance, withLock, h, Bool.false_eq_true, if_false, Res.ok_bind]
  rw [← h]

/-- Deleting modules while the lock is free. -/
theorem deleteAll_eq (s : Reg) (h : s.locked = false) (items : List (Nat × Obj))
    (hh : ∀ p ∈ items, p.2.heap = true) :
    deleteAll s items =
      .ok ({ s with inst := s.inst.filter (fun p => decide (p.1 ∉ items.map Prod.fst)) }, ()) := by
  induction items generalizing s with
  | nil =>
    simp [deleteAll]
  | cons p items ih =>
    have e : delete s p = .ok ({ s with inst := erase s.inst p.1 }, ()) := by
      rw [delete, if_pos (hh p (by simp)), dtor_eq h]
    have := ih { s with inst := erase s.inst p.1 } h (fun q hq => hh q (by simp [hq]))
    unfold deleteAll at this ⊢
    rw [List.foldlM_cons, e, Res.ok_bind, this]
    simp only [erase, List.filter_filter]
    congr 2
    congr 1
    apply List.filter_congr
    intro q _
    by_cases h1 : q.1 = p.1 <;> by_cases h2 : q.1 ∈ items.map Prod.fst <;>
      simp only [List.map_cons, List.mem_cons, h1, h2, decide_true, decide_false, not_true,
        not_false_eq_true, or_true, or_false, Bool.and_true, Bool.and_false, ne_eq] <;> simp_all

/-- Deleting a module while the lock is held. -/
theorem deleteAll_locked (s : Reg) (h : s.locked = true) (p : Nat × Obj) (items : List (Nat × Obj))
    (hp : p.2.heap = true) : deleteAll s (p :: items) = .hang := by
  unfold deleteAll
  rw [List.foldlM_cons]
  simp [delete, hp, dtor, withLock, h]

theorem find_filter_none {m : SMap Nat Obj} (k : Nat) :
    find (m.filter (fun p => decide (p.1 ∉ m.map Prod.fst))) k = none := by
  rw [find_eq_none_iff]
  intro hk
  obtain ⟨v, hv⟩ := (mem_keys_iff _ _).mp hk
  have := mem_of_find hv
  rw [List.mem_filter] at this
  have h2 := this.2
  simp only [decide_eq_true_eq] at h2
  exact h2 (List.mem_map.mpr ⟨_, this.1, rfl⟩)

/-- The map of instances is always sorted by index. -/
theorem sorted_of_runs {t : Trace} {s : Reg} (hr : Runs t s) : Sorted s.inst := by
  induction hr with
  | nil => simp [start, Sorted]
  | @cons t s s' op r hr he ih =>
    have hdt : ∀ {s s' : Reg} {i : Nat} {u : Unit}, Sorted s.inst →
        dtor s i = .ok (s', u) → Sorted s'.inst := by
      intro s s' i u hs h
      obtain ⟨_, _, q, h1, h2⟩ := withLock_ok h
      simp only [Res.ok.injEq] at h1
      rw [Prod.mk.injEq] at h2
      rw [h2.1, ← h1]
      exact sorted_erase hs i
    have hde : ∀ {s s' : Reg} {p : Nat × Obj} {u : Unit}, Sorted s.inst →
        delete s p = .ok (s', u) → Sorted s'.inst := by
      intro s s' p u hs h
      unfold delete at h
      split at h
      · exact hdt hs h
      · cases h
    have hda : ∀ (items : List (Nat × Obj)) {s s' : Reg} {u : Unit}, Sorted s.inst →
        deleteAll s items = .ok (s', u) → Sorted s'.inst := by
      intro items
      induction items with
      | nil =>
        intro s s' u hs h
        simp only [deleteAll, List.foldlM_nil, Res.pure_eq, Res.ok.injEq,
          Prod.mk.injEq] at h
        exact h.1 ▸ hs
      | cons p items ih2 =>
        intro s s' u hs h
        unfold deleteAll at h ih2
        rw [List.foldlM_cons] at h
        cases hd : delete s p with
        | ok q => rw [hd, Res.ok_bind] at h; exact ih2 (hde hs hd) h
        | hang => rw [hd] at h; simp at h
        | ub => rw [hd] at h; simp at h
    have hdest : ∀ {s s' : Reg} {id : Int} {r : IRM}, Sorted s.inst →
        destroy s id = .ok (s', r) → Sorted s'.inst := by
      intro s s' id r hs h
      unfold destroy at h
      split at h
      · rename_i o _
        cases hd : delete s (sizeT id, o) with
        | ok q =>
          rw [hd] at h
          simp only [Res.ok_bind, Res.ok.injEq, Prod.mk.injEq] at h
          exact h.1 ▸ hde hs hd
        | hang => rw [hd] at h; simp at h
        | ub => rw [hd] at h; simp at h
      · simp only [Res.ok.injEq, Prod.mk.injEq] at h
        exact h.1 ▸ hs
    have hgi : ∀ {s s' : Reg} {id : Int} {f}, getInstance s id = .ok (s', f) →
        s'.inst = s.inst := by
      intro s s' id f h
      obtain ⟨_, _, q, h1, h2⟩ := withLock_ok h
      simp only [Res.ok.injEq] at h1
      rw [Prod.mk.injEq] at h2
      rw [h2.1, ← h1]
    have hgb : ∀ {s s' : Reg} {id : Int} {f}, getBMI s id = .ok (s', f) →
        s'.inst = s.inst := by
      intro s s' id f h
      unfold getBMI at h
      cases hg : getInstance s id with
      | ok q =>
        rw [hg] at h
        simp only [Res.ok_bind, Res.ok.injEq, Prod.mk.injEq] at h
        rw [← h.1]; exact hgi hg
      | hang => rw [hg] at h; simp at h
      | ub => rw [hg] at h; simp at h
    cases op with
    | create o good =>
      simp only [exec, create] at he
      cases hc : ctor s o with
      | hang => rw [hc] at he; simp at he
      | ub => rw [hc] at he; simp at he
      | ok q =>
        have hq : Sorted q.1.inst := by
          obtain ⟨_, _, p, h1, h2⟩ := withLock_ok hc
          simp only [Res.ok.injEq] at h1
          rw [h2, ← h1]
          exact sorted_insert ih _ _
        rw [hc, Res.ok_bind] at he
        cases good with
        | true =>
          simp only [if_true, Res.ok_bind, Res.ok.injEq, Prod.mk.injEq] at he
          exact he.1 ▸ hq
        | false =>
          simp only [Bool.false_eq_true, if_false] at he
          cases hd : dtor q.1 q.2 with
          | ok w =>
            rw [hd] at he
            simp only [Res.ok_bind, Res.ok.injEq, Prod.mk.injEq] at he
            exact he.1 ▸ hdt hq hd
          | hang => rw [hd] at he; simp at he
          | ub => rw [hd] at he; simp at he
    | get id =>
      simp only [exec] at he
      cases hg : getInstance s id with
      | ok q =>
        rw [hg] at he
        simp only [Res.ok_bind, Res.ok.injEq, Prod.mk.injEq] at he
        rw [← he.1, hgi hg]; exact ih
      | hang => rw [hg] at he; simp at he
      | ub => rw [hg] at he; simp at he
    | getBMI id =>
      simp only [exec] at he
      cases hg : getBMI s id with
      | ok q =>
        rw [hg] at he
        simp only [Res.ok_bind, Res.ok.injEq, Prod.mk.injEq] at he
        rw [← he.1, hgb hg]; exact ih
      | hang => rw [hg] at he; simp at he
      | ub => rw [hg] at he; simp at he
    | destroy id =>
      simp only [exec] at he
      cases hd : destroy s id with
      | ok q =>
        rw [hd] at he
        simp only [Res.ok_bind, Res.ok.injEq, Prod.mk.injEq] at he
        rw [← he.1]; exact hdest ih hd
      | hang => rw [hd] at he; simp at he
      | ub => rw [hd] at he; simp at he
    | destroyBMI id =>
      simp only [exec, destroyBMI] at he
      cases hg : getBMI s id with
      | ok q =>
        rw [hg, Res.ok_bind] at he
        have hq : Sorted q.1.inst := by rw [hgb hg]; exact ih
        cases hq2 : q.2 with
        | none =>
          rw [hq2] at he
          simp only [Res.ok_bind, Res.ok.injEq, Prod.mk.injEq] at he
          exact he.1 ▸ hq
        | some o =>
          rw [hq2] at he
          simp only at he
          cases hd : destroy q.1 id with
          | ok w =>
            rw [hd] at he
            simp only [Res.ok_bind, Res.ok.injEq, Prod.mk.injEq] at he
            rw [← he.1]; exact hdest hq hd
          | hang => rw [hd] at he; simp at he
          | ub => rw [hd] at he; simp at he
      | hang => rw [hg] at he; simp at he
      | ub => rw [hg] at he; simp at he
    | cleanup =>
      simp only [exec] at he
      cases hd : destroyAll s with
      | ok q =>
        rw [hd] at he
        simp only [Res.ok_bind, Res.ok.injEq, Prod.mk.injEq] at he
        rw [← he.1]; exact hda _ ih hd
      | hang => rw [hd] at he; simp at he
      | ub => rw [hd] at he; simp at he
    | cleanupBMI =>
      simp only [exec] at he
      cases hd : cleanupBMI s with
      | ok q =>
        rw [hd] at he
        simp only [Res.ok_bind, Res.ok.injEq, Prod.mk.injEq] at he
        obtain ⟨_, _, w, h1, h2⟩ := withLock_ok hd
        rw [← he.1, h2]
        have h3 : Sorted w.1.inst :=
          hda _ (s := { s with locked := true }) (s' := w.1) (u := w.2) ih h1
        exact h3
      | hang => rw [hd] at he; simp at he
      | ub => rw [hd] at he; simp at he
    | drop i =>
      simp only [exec, drop] at he
      cases hf : find s.inst i with
      | none => rw [hf] at he; simp at he
      | some o =>
        rw [hf] at he
        simp only at he
        cases hd : dtor s i with
        | ok q =>
          rw [hd] at he
          simp only [Res.ok_bind, Res.ok.injEq, Prod.mk.injEq] at he
          rw [← he.1]; exact hdt ih hd
        | hang => rw [hd] at he; simp at he
        | ub => rw [hd] at he; simp at he

end Verif.Registry
