import Verif.Registry.Lemmas

/-! # Identifiers are never reused; cleaning up (C37, C38, C85, C86) -/

namespace Verif.Registry

open Verif.OMap

/-- The registry after a history with fewer than 2^31 constructions. -/
structure Inv (t : Trace) (s : Reg) : Prop where
  unlocked : s.locked = false
  next     : s.next = made t
  live     : ∀ k o, find s.inst k = some o ↔ Live (k : Int) o t
  bound    : ∀ id o, Live id o t → ∃ k : Nat, id = (k : Int) ∧ k < made t
  ids      : ∀ id ∈ issued t, ∃ k : Nat, id = (k : Int) ∧ k < made t
  nodup    : (issued t).Nodup

theorem inv_create {t : Trace} {s s' : Reg} {o : Obj} {good : Bool} {r : Reply} (hi : Inv t s)
    (hn : made t + 1 ≤ 2 ^ 31) (h : exec s (.create o good) = .ok (s', r)) :
    Inv ((.create o good, r) :: t) s' := by
  have hnx : (s.next + 1) % 2 ^ 64 = made t + 1 := by
    rw [hi.next]; exact Nat.mod_eq_of_lt (by omega)
  have hti : toInt s.next = (made t : Int) := by rw [hi.next]; exact toInt_small _ (by omega)
  have hnone : ∀ o', ¬ Live (made t : Int) o' t := fun o' hl => by
    obtain ⟨k, h1, h2⟩ := hi.bound _ _ hl
    omega
  simp only [exec, create, ctor_eq hi.unlocked, Res.ok_bind] at h
  cases good with
  | true =>
    simp only [if_true, Res.ok_bind, Res.ok.injEq, Prod.mk.injEq] at h
    obtain ⟨rfl, rfl⟩ := h
    rw [hti]
    refine ⟨hi.unlocked, by simp only [made]; exact hnx, fun k o' => ?_, fun id o' hl => ?_,
      fun id hid => ?_, ?_⟩
    · simp only [find_insert, Live]
      by_cases e : k = s.next
      · subst e
        rw [if_pos rfl, hi.next]
        constructor
        · intro he
          simp only [Option.some.injEq] at he
          exact Or.inl ⟨trivial, rfl, he⟩
        · rintro (⟨_, _, he⟩ | he)
          · rw [he]
          · exact absurd he (hnone o')
      · rw [if_neg e, hi.live k o']
        constructor
        · exact Or.inr
        · rintro (⟨_, he, _⟩ | he)
          · simp only [Reply.made.injEq] at he
            rw [hi.next] at e
            omega
          · exact he
    · simp only [Live] at hl
      simp only [made]
      rcases hl with ⟨_, he, _⟩ | hl
      · simp only [Reply.made.injEq] at he
        exact ⟨made t, he.symm, by omega⟩
      · obtain ⟨k, h1, h2⟩ := hi.bound _ _ hl
        exact ⟨k, h1, by omega⟩
    · simp only [issued, List.mem_cons] at hid
      simp only [made]
      rcases hid with rfl | hid
      · exact ⟨made t, rfl, by omega⟩
      · obtain ⟨k, h1, h2⟩ := hi.ids id hid
        exact ⟨k, h1, by omega⟩
    · simp only [issued, List.nodup_cons]
      refine ⟨fun hm => ?_, hi.nodup⟩
      obtain ⟨k, h1, h2⟩ := hi.ids _ hm
      omega
  | false =>
    simp only [Bool.false_eq_true, if_false] at h
    rw [dtor_eq (by exact hi.unlocked)] at h
    simp only [Res.ok_bind, Res.ok.injEq, Prod.mk.injEq] at h
    obtain ⟨rfl, rfl⟩ := h
    refine ⟨hi.unlocked, by simp only [made]; exact hnx, fun k o' => ?_, fun id o' hl => ?_,
      fun id hid => ?_, ?_⟩
    · simp only [find_erase, find_insert, Live, Bool.false_eq_true, false_and, false_or]
      by_cases e : k = s.next
      · rw [if_pos e]
        rw [e, hi.next]
        constructor
        · intro he; cases he
        · exact fun he => absurd he (hnone o')
      · rw [if_neg e, if_neg e, hi.live k o']
    · simp only [Live, Bool.false_eq_true, false_and, false_or] at hl
      simp only [made]
      obtain ⟨k, h1, h2⟩ := hi.bound _ _ hl
      exact ⟨k, h1, by omega⟩
    · simp only [issued] at hid
      simp only [made]
      obtain ⟨k, h1, h2⟩ := hi.ids id hid
      exact ⟨k, h1, by omega⟩
    · simp only [issued]; exact hi.nodup

/-- A module looked up by identifier. -/
theorem find_live {t : Trace} {s : Reg} (hi : Inv t s) (hn : made t ≤ 2 ^ 31) (id : Int)
    (hlo : -2 ^ 31 ≤ id) (hhi : id < 2 ^ 31) (o : Obj) :
    find s.inst (sizeT id) = some o ↔ Live id o t := by
  by_cases hneg : id < 0
  · constructor
    · intro h
      have := (hi.live _ o).mp h
      obtain ⟨k, h1, h2⟩ := hi.bound _ _ this
      have := sizeT_neg id hneg hlo
      omega
    · intro h
      obtain ⟨k, h1, h2⟩ := hi.bound _ _ h
      omega
  · obtain ⟨k, rfl⟩ := Int.eq_ofNat_of_zero_le (not_lt.mp hneg)
    have : sizeT ((k : Nat) : Int) = k := sizeT_nat k (by
      have : (k : Int) < 2 ^ 31 := hhi
      omega)
    rw [this]
    exact hi.live k o

/-- Replacing the instances by those that satisfy a condition on the identifier. -/
theorem inv_keep {t : Trace} {s s' : Reg} {op : Op} {r : Reply} (hi : Inv t s)
    (P : Nat → Obj → Prop) (hs' : s'.locked = false) (hnext : s'.next = s.next)
    (hfind : ∀ k o, find s'.inst k = some o ↔ P k o ∧ find s.inst k = some o)
    (hmade : made ((op, r) :: t) = made t) (hiss : issued ((op, r) :: t) = issued t)
    (hlive : ∀ id o, Live id o ((op, r) :: t) → Live id o t)
    (hlive' : ∀ (k : Nat) o, Live (k : Int) o ((op, r) :: t) ↔ P k o ∧ Live (k : Int) o t) :
    Inv ((op, r) :: t) s' := by
  refine ⟨hs', by rw [hnext, hi.next, hmade], fun k o => ?_, fun id o hl => ?_, ?_, ?_⟩
  · rw [hfind, hlive', hi.live]
  · rw [hmade]; exact hi.bound id o (hlive id o hl)
  · rw [hmade, hiss]; exact hi.ids
  · rw [hiss]; exact hi.nodup

theorem live_int {t : Trace} {s : Reg} (hi : Inv t s) {id : Int} {o : Obj} (h : Live id o t) :
    ∃ k : Nat, id = k ∧ find s.inst k = some o := by
  obtain ⟨k, h1, _⟩ := hi.bound id o h
  exact ⟨k, h1, (hi.live k o).mpr (h1 ▸ h)⟩

/-- `Destroy` on a module that is not there. -/
theorem destroy_none {s : Reg} {id : Int} (h : find s.inst (sizeT id) = none) :
    destroy s id = .ok (s, .badInstance) := by
  simp [destroy, h]

/-- `Destroy` on a module made with `new`. -/
theorem destroy_some {s : Reg} (hl : s.locked = false) {id : Int} {o : Obj}
    (h : find s.inst (sizeT id) = some o) (hh : o.heap = true) :
    destroy s id = .ok ({ s with inst := erase s.inst (sizeT id) }, .ok) := by
  simp [destroy, h, delete, hh, dtor_eq hl]

/-- `Destroy` on a module that was not made with `new`. -/
theorem destroy_stack {s : Reg} {id : Int} {o : Obj}
    (h : find s.inst (sizeT id) = some o) (hh : o.heap = false) : destroy s id = .ub := by
  simp [destroy, h, delete, hh]

/-- Whenever `Destroy` returns. -/
theorem destroy_ok {s s' : Reg} (hl : s.locked = false) {id : Int} {r : IRM}
    (h : destroy s id = .ok (s', r)) :
    (find s.inst (sizeT id) = none ∧ s' = s ∧ r = .badInstance) ∨
    (∃ o, find s.inst (sizeT id) = some o ∧ o.heap = true ∧
      s' = { s with inst := erase s.inst (sizeT id) } ∧ r = .ok) := by
  cases hf : find s.inst (sizeT id) with
  | none =>
    rw [destroy_none hf] at h
    simp only [Res.ok.injEq, Prod.mk.injEq] at h
    exact Or.inl ⟨rfl, h.1.symm, h.2.symm⟩
  | some o =>
    cases hh : o.heap with
    | false => rw [destroy_stack hf hh] at h; cases h
    | true =>
      rw [destroy_some hl hf hh] at h
      simp only [Res.ok.injEq, Prod.mk.injEq] at h
      exact Or.inr ⟨o, rfl, hh, h.1.symm, h.2.symm⟩

theorem getBMI_eq {s : Reg} (hl : s.locked = false) (id : Int) :
    getBMI s id = .ok (s, (find s.inst (sizeT id)).filter (fun o => o.bmi)) := by
  simp only [getBMI, getInstance_eq hl, Res.ok_bind]

/-- Identifiers that fit in an `int`, as every argument does. -/
def IsInt (id : Int) : Prop := -2 ^ 31 ≤ id ∧ id < 2 ^ 31

/-- All identifiers given to calls are `int`s. -/
def IntArgs : Trace → Prop
  | [] => True
  | (.get id, _) :: t => IsInt id ∧ IntArgs t
  | (.getBMI id, _) :: t => IsInt id ∧ IntArgs t
  | (.destroy id, _) :: t => IsInt id ∧ IntArgs t
  | (.destroyBMI id, _) :: t => IsInt id ∧ IntArgs t
  | _ :: t => IntArgs t

theorem IntArgs.tail {p : Op × Reply} {t : Trace} (h : IntArgs (p :: t)) : IntArgs t := by
  obtain ⟨op, r⟩ := p
  cases op <;> first | exact h.2 | exact h

theorem made_tail (p : Op × Reply) (t : Trace) : made t ≤ made (p :: t) := by
  obtain ⟨op, r⟩ := p
  cases op <;> simp [made]

/-- The registry agrees with the history. -/
theorem inv_of_runs {t : Trace} {s : Reg} (hr : Runs t s) (hn : made t ≤ 2 ^ 31)
    (ha : IntArgs t) : Inv t s := by
  induction hr with
  | nil =>
    exact ⟨rfl, rfl, fun k o => by simp [start, find, Live], fun _ _ h => absurd h (by simp [Live]),
      fun _ h => absurd h (by simp [issued]), by simp [issued]⟩
  | @cons t s s' op r hr he ih =>
    have hi := ih (le_trans (made_tail _ _) hn) ha.tail
    have hn' := le_trans (made_tail (op, r) t) hn
    cases op with
    | create o good => exact inv_create hi (by simpa [made] using hn) he
    | get id =>
      simp only [exec, getInstance_eq hi.unlocked, Res.ok_bind, Res.ok.injEq, Prod.mk.injEq] at he
      obtain ⟨rfl, _⟩ := he
      exact inv_keep hi (fun _ _ => True) hi.unlocked rfl (by simp) rfl rfl (fun _ _ h => h)
        (by simp [Live])
    | getBMI id =>
      simp only [exec, getBMI_eq hi.unlocked, Res.ok_bind, Res.ok.injEq, Prod.mk.injEq] at he
      obtain ⟨rfl, _⟩ := he
      exact inv_keep hi (fun _ _ => True) hi.unlocked rfl (by simp) rfl rfl (fun _ _ h => h)
        (by simp [Live])
    | destroy id =>
      have hint : IsInt id := ha.1
      simp only [exec] at he
      cases hd : destroy s id with
      | hang => rw [hd] at he; simp at he
      | ub => rw [hd] at he; simp at he
      | ok p =>
        rw [hd] at he
        simp only [Res.ok_bind, Res.ok.injEq, Prod.mk.injEq] at he
        obtain ⟨rfl, _⟩ := he
        have hP : ∀ (k : Nat) o, find s.inst k = some o → ((k : Int) ≠ id ↔ k ≠ sizeT id) := by
          intro k o hk
          obtain ⟨k', e1, e2⟩ := hi.bound _ _ ((hi.live k o).mp hk)
          constructor
          · rintro h1 rfl
            by_cases hneg : id < 0
            · have := sizeT_neg id hneg hint.1
              omega
            · obtain ⟨m, rfl⟩ := Int.eq_ofNat_of_zero_le (not_lt.mp hneg)
              have h31 : (m : Int) < 2 ^ 31 := hint.2
              rw [sizeT_nat m (by omega)] at h1
              exact h1 rfl
          · rintro h1 rfl
            exact h1 (sizeT_nat k (by omega)).symm
        rcases destroy_ok hi.unlocked hd with ⟨h1, h2, _⟩ | ⟨o, h1, _, h2, _⟩
        · refine inv_keep hi (fun k _ => (k : Int) ≠ id) (h2 ▸ hi.unlocked) (by rw [h2])
            (fun k o => ?_) rfl rfl (fun _ _ h => h.2) (fun k o => by
              simp only [Live]; exact and_congr_left' ⟨fun h e => h e.symm, fun h e => h e.symm⟩)
          rw [h2]
          refine ⟨fun hk => ⟨(hP k o hk).mpr ?_, hk⟩, fun hk => hk.2⟩
          rintro rfl
          rw [h1] at hk; cases hk
        · refine inv_keep hi (fun k _ => (k : Int) ≠ id) (by rw [h2]; exact hi.unlocked)
            (by rw [h2]) (fun k o => ?_) rfl rfl (fun _ _ h => h.2) (fun k o => by
              simp only [Live]; exact and_congr_left' ⟨fun h e => h e.symm, fun h e => h e.symm⟩)
          rw [h2]
          simp only [find_erase]
          by_cases e : k = sizeT id
          · rw [if_pos e]
            refine ⟨fun hk => (by cases hk), fun hk => ?_⟩
            exact absurd e ((hP k o hk.2).mp hk.1)
          · rw [if_neg e]
            exact ⟨fun hk => ⟨(hP k o hk).mpr e, hk⟩, fun hk => hk.2⟩
    | destroyBMI id =>
      have hint : IsInt id := ha.1
      simp only [exec, destroyBMI, getBMI_eq hi.unlocked, Res.ok_bind] at he
      have hfl := find_live hi hn' id hint.1 hint.2
      have hP : ∀ (k : Nat) o, find s.inst k = some o → ((k : Int) ≠ id ↔ k ≠ sizeT id) := by
        intro k o hk
        obtain ⟨k', e1, e2⟩ := hi.bound _ _ ((hi.live k o).mp hk)
        constructor
        · rintro h1 rfl
          by_cases hneg : id < 0
          · have := sizeT_neg id hneg hint.1
            omega
          · obtain ⟨m, rfl⟩ := Int.eq_ofNat_of_zero_le (not_lt.mp hneg)
            have h31 : (m : Int) < 2 ^ 31 := hint.2
            rw [sizeT_nat m (by omega)] at h1
            exact h1 rfl
        · rintro h1 rfl
          exact h1 (sizeT_nat k (by omega)).symm
      cases hf : (find s.inst (sizeT id)).filter (fun o => o.bmi) with
      | none =>
        rw [hf] at he
        simp only [Res.ok_bind, Res.ok.injEq, Prod.mk.injEq] at he
        obtain ⟨rfl, _⟩ := he
        refine inv_keep hi (fun k o => id = (k : Int) → o.bmi = false) hi.unlocked rfl
          (fun k o => ?_) rfl rfl (fun _ _ h => h.2) (fun k o => Iff.rfl)
        refine ⟨fun hk => ⟨fun e => ?_, hk⟩, fun hk => hk.2⟩
        have : find s.inst (sizeT id) = some o := (hfl o).mpr (e ▸ (hi.live k o).mp hk)
        rw [this] at hf
        simpa [Option.filter] using hf
      | some o' =>
        rw [hf] at he
        simp only at he
        cases hd : destroy s id with
        | hang => rw [hd] at he; simp at he
        | ub => rw [hd] at he; simp at he
        | ok p =>
          rw [hd] at he
          simp only [Res.ok_bind, Res.ok.injEq, Prod.mk.injEq] at he
          obtain ⟨rfl, _⟩ := he
          rcases destroy_ok hi.unlocked hd with ⟨h1, h2, _⟩ | ⟨o, h1, _, h2, _⟩
          · rw [h1] at hf; simp at hf
          · rw [h1] at hf
            have hob : o.bmi = true := by
              by_contra hne
              simp [Option.filter, hne] at hf
            refine inv_keep hi (fun k o => id = (k : Int) → o.bmi = false)
              (by rw [h2]; exact hi.unlocked) (by rw [h2]) (fun k o2 => ?_) rfl rfl
              (fun _ _ h => h.2) (fun k o => Iff.rfl)
            rw [h2]
            simp only [find_erase]
            by_cases e : k = sizeT id
            · rw [if_pos e]
              refine ⟨fun hk => (by cases hk), fun hk => ?_⟩
              exfalso
              have hk2 := hk.2
              rw [e, h1] at hk2
              simp only [Option.some.injEq] at hk2
              have hid : id = (k : Int) := by
                by_contra hne
                exact (hP k o2 hk.2).mp (fun e => hne e.symm) e
              have := hk.1 hid
              rw [← hk2, hob] at this
              cases this
            · rw [if_neg e]
              refine ⟨fun hk => ⟨fun e2 => ?_, hk⟩, fun hk => hk.2⟩
              exact absurd e2.symm ((hP k o2 hk).mpr e)
    | cleanup =>
      simp only [exec] at he
      have hall : ∀ p ∈ s.inst, p.2.heap = true := by
        by_contra hne
        push Not at hne
        have gen : ∀ (items : List (Nat × Obj)) (s : Reg), s.locked = false →
            (∃ p ∈ items, p.2.heap ≠ true) → deleteAll s items = .ub := by
          intro items
          induction items with
          | nil => rintro s _ ⟨p, hp, _⟩; simp at hp
          | cons q items ih2 =>
            rintro s hs ⟨p, hp, hh⟩
            unfold deleteAll at ih2 ⊢
            rw [List.foldlM_cons]
            cases hq : q.2.heap with
            | false => simp [delete, hq]
            | true =>
              simp only [delete, hq, if_true, dtor_eq hs, Res.ok_bind]
              refine ih2 _ hs ⟨p, ?_, hh⟩
              rcases List.mem_cons.mp hp with rfl | hp
              · exact absurd hq hh
              · exact hp
        rw [destroyAll, gen _ _ hi.unlocked hne] at he
        simp at he
      rw [destroyAll, deleteAll_eq s hi.unlocked _ hall] at he
      simp only [Res.ok_bind, Res.ok.injEq, Prod.mk.injEq] at he
      obtain ⟨rfl, _⟩ := he
      refine inv_keep hi (fun _ _ => False) hi.unlocked rfl (fun k o => ?_) rfl rfl
        (fun _ _ h => absurd h (by simp [Live])) (fun k o => by simp [Live])
      simp only [find_filter_none]
      simp
    | cleanupBMI =>
      simp only [exec, cleanupBMI, withLock, hi.unlocked, Bool.false_eq_true, if_false] at he
      have hstack : ∀ (p : Nat × Obj) items (s : Reg), s.locked = true →
          deleteAll s (p :: items) = .hang ∨ deleteAll s (p :: items) = .ub := by
        intro p items s hs
        cases hp : p.2.heap with
        | true => exact Or.inl (deleteAll_locked s hs p items hp)
        | false =>
          right
          unfold deleteAll
          rw [List.foldlM_cons]
          simp [delete, hp]
      cases hfil : s.inst.filter (fun p => p.2.bmi) with
      | cons p items =>
        rw [hfil] at he
        rcases hstack p items { s with locked := true } rfl with h | h
        · rw [h] at he; simp at he
        · rw [h] at he; simp at he
      | nil =>
        rw [hfil] at he
        simp only [deleteAll, List.foldlM_nil, Res.pure_eq, Res.ok_bind, Res.ok.injEq,
          Prod.mk.injEq] at he
        obtain ⟨rfl, _⟩ := he
        refine inv_keep hi (fun _ o => o.bmi = false) rfl rfl (fun k o => ?_) rfl rfl
          (fun _ _ h => h.2) (fun k o => Iff.rfl)
        simp only
        refine ⟨fun hk => ⟨?_, hk⟩, fun hk => hk.2⟩
        have hm := mem_of_find hk
        by_contra hne
        have : (k, o) ∈ s.inst.filter (fun p => p.2.bmi) :=
          List.mem_filter.mpr ⟨hm, by simpa using hne⟩
        rw [hfil] at this
        simp at this
    | drop i =>
      simp only [exec, drop] at he
      cases hf : find s.inst i with
      | none => rw [hf] at he; simp at he
      | some o' =>
        rw [hf] at he
        simp only [dtor_eq hi.unlocked, Res.ok_bind, Res.ok.injEq, Prod.mk.injEq] at he
        obtain ⟨rfl, _⟩ := he
        refine inv_keep hi (fun k _ => k ≠ i) hi.unlocked rfl (fun k o => ?_) rfl rfl
          (fun _ _ h => h.2) (fun k o => by
            simp only [Live]
            exact and_congr_left' ⟨fun h e => h (by rw [e]), fun h e => h (by exact_mod_cast e.symm)⟩)
        simp only [find_erase]
        by_cases e : k = i
        · simp [e]
        · simp [e]

/-- C37. In every history of calls with fewer than 2^31 constructions: no identifier was issued
twice, and none is negative; looking up an identifier finds exactly the living module; the next
construction gets an identifier never issued before; `Destroy` on an identifier that is not alive
(unknown, negative, destroyed before) returns the bad-instance code and changes nothing; on a
living module made with `new` it returns OK, and then the identifier is not alive while every
other module is as before. -/
theorem ids_never_reused {t : Trace} {s : Reg} (hr : Runs t s) (hn : made t < 2 ^ 31)
    (ha : IntArgs t) :
    (issued t).Nodup ∧ (∀ id ∈ issued t, 0 ≤ id) ∧
    (∀ o, ∃ s' id, exec s (.create o true) = .ok (s', .made id) ∧ 0 ≤ id ∧ id ∉ issued t) ∧
    (∀ id, IsInt id → ∃ f, exec s (.get id) = .ok (s, .found f) ∧ ∀ o, f = some o ↔ Live id o t) ∧
    (∀ id, IsInt id → (∀ o, ¬ Live id o t) → exec s (.destroy id) = .ok (s, .code .badInstance)) ∧
    (∀ id o, IsInt id → Live id o t → o.heap = true →
      ∃ s', exec s (.destroy id) = .ok (s', .code .ok) ∧
        ∀ id', IsInt id' → ∃ f, exec s' (.get id') = .ok (s', .found f) ∧
          ∀ o', f = some o' ↔ id' ≠ id ∧ Live id' o' t) := by
  have hi := inv_of_runs hr (by omega) ha
  have hget : ∀ {s : Reg} {t : Trace}, Inv t s → made t ≤ 2 ^ 31 → ∀ id, IsInt id →
      ∃ f, exec s (.get id) = .ok (s, .found f) ∧ ∀ o, f = some o ↔ Live id o t := by
    intro s t hi hn id hid
    exact ⟨_, by simp only [exec, getInstance_eq hi.unlocked, Res.ok_bind],
      fun o => find_live hi hn id hid.1 hid.2 o⟩
  refine ⟨hi.nodup, fun id hid => ?_, fun o => ?_, hget hi (by omega), fun id hid hdead => ?_,
    fun id o hid hl hh => ?_⟩
  · obtain ⟨k, h1, _⟩ := hi.ids id hid
    omega
  · refine ⟨_, _, by
      simp only [exec, create, ctor_eq hi.unlocked, Res.ok_bind, if_true]; exact rfl, ?_, ?_⟩
    · rw [hi.next, toInt_small _ hn]; omega
    · rw [hi.next, toInt_small _ hn]
      intro hm
      obtain ⟨k, h1, h2⟩ := hi.ids _ hm
      omega
  · have hf : find s.inst (sizeT id) = none := by
      cases hf : find s.inst (sizeT id) with
      | none => rfl
      | some o => exact absurd ((find_live hi (by omega) id hid.1 hid.2 o).mp hf) (hdead o)
    simp only [exec, destroy_none hf, Res.ok_bind]
  · have hf := (find_live hi (by omega) id hid.1 hid.2 o).mpr hl
    have he : exec s (.destroy id) =
        .ok ({ s with inst := erase s.inst (sizeT id) }, .code .ok) := by
      simp only [exec, destroy_some hi.unlocked hf hh, Res.ok_bind]
    have hi' : Inv ((.destroy id, .code .ok) :: t) { s with inst := erase s.inst (sizeT id) } :=
      inv_of_runs (hr.cons he) (by simp only [made]; omega) ⟨hid, ha⟩
    refine ⟨_, he, fun id' hid' => ?_⟩
    obtain ⟨f, h1, h2⟩ := hget hi' (by simp only [made]; omega) id' hid'
    exact ⟨f, h1, fun o' => by
      rw [h2 o']
      simp only [Live]
      exact and_congr_left' ⟨fun h e => h e.symm, fun h e => h e.symm⟩⟩

/-- Identifiers are `int`s: the module made after 2^31 others gets a negative one, which no
lookup accepts. -/
theorem id_wraps {t : Trace} {s : Reg} (hr : Runs t s) (hn : made t = 2 ^ 31) (ha : IntArgs t)
    (o : Obj) : ∃ s', exec s (.create o true) = .ok (s', .made (-2 ^ 31)) ∧
      exec s' (.get (-2 ^ 31)) = .ok (s', .found none) := by
  have hi := inv_of_runs hr (by omega) ha
  let s' : Reg := { s with next := (s.next + 1) % 2 ^ 64, inst := OMap.insert s.inst s.next o }
  have he : exec s (.create o true) = .ok (s', .made (-2 ^ 31)) := by
    simp only [exec, create, ctor_eq hi.unlocked, Res.ok_bind, if_true]
    rw [show toInt s.next = -2 ^ 31 from by rw [hi.next, hn]; decide]
  refine ⟨s', he, ?_⟩
  have hu : s'.locked = false := hi.unlocked
  simp only [exec, getInstance_eq hu, Res.ok_bind]
  have : find s'.inst (sizeT (-2 ^ 31)) = none := by
    simp only [s', find_insert]
    have hsz : sizeT (-2 ^ 31) = 2 ^ 64 - 2 ^ 31 := by decide
    rw [if_neg (by rw [hsz, hi.next, hn]; decide)]
    cases hf : find s.inst (sizeT (-2 ^ 31)) with
    | none => rfl
    | some o' =>
      obtain ⟨k, h1, h2⟩ := hi.bound _ _ ((hi.live _ _).mp hf)
      rw [hsz] at h1
      omega
  rw [this]

/-- C38 as stated: cleaning up the BMI instances returns, and then none is left. -/
def CleanupReturns : Prop :=
  ∀ (t : Trace) (s : Reg), Runs t s → made t < 2 ^ 31 → IntArgs t →
    (∀ id o, Live id o t → o.heap = true) →
    ∃ s', exec s .cleanupBMI = .ok (s', .done) ∧ ∀ k o, find s'.inst k = some o → o.bmi = false

/-- C38, what happens instead: with any living BMI instance (all modules made with `new`) the call
blocks for ever. -/
theorem cleanupBMI_hangs {t : Trace} {s : Reg} (hr : Runs t s) (hn : made t < 2 ^ 31)
    (ha : IntArgs t) (hheap : ∀ id o, Live id o t → o.heap = true) {id : Int} {o : Obj}
    (hl : Live id o t) (hb : o.bmi = true) : exec s .cleanupBMI = .hang := by
  have hi := inv_of_runs hr (by omega) ha
  obtain ⟨k, _, hk⟩ := live_int hi hl
  have hm : (k, o) ∈ s.inst.filter (fun p => p.2.bmi) :=
    List.mem_filter.mpr ⟨mem_of_find hk, by simpa using hb⟩
  cases hfil : s.inst.filter (fun p => p.2.bmi) with
  | nil => rw [hfil] at hm; simp at hm
  | cons p items =>
    have hp : p ∈ s.inst := by
      have : p ∈ s.inst.filter (fun p => p.2.bmi) := by rw [hfil]; simp
      exact (List.mem_filter.mp this).1
    have hph : p.2.heap = true := by
      have hs : Sorted s.inst := sorted_of_runs hr
      exact hheap _ _ ((hi.live p.1 p.2).mp (find_of_mem hs hp))
    simp only [exec, cleanupBMI, withLock, hi.unlocked, Bool.false_eq_true, if_false]
    rw [hfil, deleteAll_locked _ rfl p items hph]
    simp

/-- C38, the part that holds: without BMI instances the call returns and changes nothing. Missing:
everything else, see `cleanup_returns_violated`. -/
theorem cleanupBMI_partial {t : Trace} {s : Reg} (hr : Runs t s) (hn : made t < 2 ^ 31)
    (ha : IntArgs t) (hno : ∀ id o, Live id o t → o.bmi = false) :
    exec s .cleanupBMI = .ok (s, .done) := by
  have hi := inv_of_runs hr (by omega) ha
  have hfil : s.inst.filter (fun p => p.2.bmi) = [] := by
    rw [List.filter_eq_nil_iff]
    intro p hp
    have := hno _ _ ((hi.live p.1 p.2).mp (find_of_mem (sorted_of_runs hr) hp))
    simp [this]
  simp only [exec, cleanupBMI, withLock, hi.unlocked, Bool.false_eq_true, if_false, hfil,
    deleteAll, List.foldlM_nil, Res.pure_eq, Res.ok_bind]
  rw [← hi.unlocked]

/-- The witness for C38: one BMI module. -/
def bmiTrace : Trace := [(.create ⟨true, true⟩ true, .made 0)]

theorem bmiTrace_runs : Runs bmiTrace ⟨1, [(0, ⟨true, true⟩)], false⟩ :=
  Runs.nil.cons (by decide +kernel)

/-- C38 is violated by the code: one BMI module, and the call never returns. -/
theorem cleanup_returns_violated : ¬ CleanupReturns := by
  intro h
  obtain ⟨s', h1, _⟩ := h _ _ bmiTrace_runs (by decide) trivial (by
    intro id o hl
    simp only [bmiTrace, Live, or_false] at hl
    rw [← hl.2.2])
  have : exec ⟨1, [(0, ⟨true, true⟩)], false⟩ .cleanupBMI = .hang := by decide +kernel
  rw [this] at h1
  cases h1

/-- C38, the part on destroying all: when every living module was made with `new`,
`CleanupReactionModuleInstances` returns, and then no identifier is found any more. -/
theorem destroyAll_empties {t : Trace} {s : Reg} (hr : Runs t s) (hn : made t < 2 ^ 31)
    (ha : IntArgs t) (hheap : ∀ id o, Live id o t → o.heap = true) :
    ∃ s', exec s .cleanup = .ok (s', .done) ∧
      ∀ id, IsInt id → exec s' (.get id) = .ok (s', .found none) := by
  have hi := inv_of_runs hr (by omega) ha
  have hall : ∀ p ∈ s.inst, p.2.heap = true := fun p hp =>
    hheap _ _ ((hi.live p.1 p.2).mp (find_of_mem (sorted_of_runs hr) hp))
  refine ⟨_, by
    simp only [exec, destroyAll, deleteAll_eq s hi.unlocked _ hall, Res.ok_bind]; exact rfl,
    fun id _ => ?_⟩
  rw [exec, getInstance_eq (by exact hi.unlocked)]
  simp only [Res.ok_bind, find_filter_none]

/-- C85 as stated: `Destroy` of a living module is never undefined. -/
def DestroyDefined : Prop :=
  ∀ (t : Trace) (s : Reg) (id : Int) (o : Obj), Runs t s → made t < 2 ^ 31 → IntArgs t →
    Live id o t → exec s (.destroy id) ≠ .ub

/-- C85 is violated: the registry does not know how a module was made, and `Destroy` deletes one
that a C++ program declared as a variable. -/
theorem destroy_defined_violated : ¬ DestroyDefined := by
  intro h
  refine h [(.create ⟨false, false⟩ true, .made 0)] ⟨1, [(0, ⟨false, false⟩)], false⟩ 0
    ⟨false, false⟩ (Runs.nil.cons (by decide +kernel)) (by decide) trivial
    (Or.inl ⟨rfl, rfl, rfl⟩) (by decide +kernel)

/-- C85, the part that holds: `Destroy` is undefined exactly on living modules that were not made
with `new`, and never blocks. Missing: those modules. -/
theorem destroy_defined_partial {t : Trace} {s : Reg} (hr : Runs t s) (hn : made t < 2 ^ 31)
    (ha : IntArgs t) (id : Int) (hid : IsInt id) :
    (exec s (.destroy id) = .ub ↔ ∃ o, Live id o t ∧ o.heap = false) ∧
      exec s (.destroy id) ≠ .hang := by
  have hi := inv_of_runs hr (by omega) ha
  have hfl := find_live hi (by omega) id hid.1 hid.2
  cases hf : find s.inst (sizeT id) with
  | none =>
    simp only [exec, destroy_none hf, Res.ok_bind]
    refine ⟨⟨fun h => (by cases h), ?_⟩, by simp⟩
    rintro ⟨o, hl, _⟩
    rw [(hfl o).mpr hl] at hf
    cases hf
  | some o =>
    have hl := (hfl o).mp hf
    cases hh : o.heap with
    | true =>
      simp only [exec, destroy_some hi.unlocked hf hh, Res.ok_bind]
      refine ⟨⟨fun h => (by cases h), ?_⟩, by simp⟩
      rintro ⟨o', hl', hh'⟩
      have := (hfl o').mpr hl'
      rw [hf] at this
      simp only [Option.some.injEq] at this
      rw [this, hh'] at hh
      cases hh
    | false =>
      simp only [exec, destroy_stack hf hh, Res.ub_bind]
      exact ⟨⟨fun _ => ⟨o, hl, hh⟩, fun _ => trivial⟩, by simp⟩

/-- `DestroyBMIModule`: on a living BMI module made with `new` it destroys that module; on any other
identifier it returns the bad-instance code and changes nothing. -/
theorem destroyBMI_spec {t : Trace} {s : Reg} (hr : Runs t s) (hn : made t < 2 ^ 31)
    (ha : IntArgs t) (id : Int) (hid : IsInt id) :
    ((∀ o, Live id o t → o.bmi = false) →
      exec s (.destroyBMI id) = .ok (s, .code .badInstance)) ∧
    (∀ o, Live id o t → o.bmi = true → o.heap = true →
      ∃ s', exec s (.destroyBMI id) = .ok (s', .code .ok) ∧
        exec s (.destroy id) = .ok (s', .code .ok)) := by
  have hi := inv_of_runs hr (by omega) ha
  have hfl := find_live hi (by omega) id hid.1 hid.2
  refine ⟨fun h => ?_, fun o hl hb hh => ?_⟩
  · have : (find s.inst (sizeT id)).filter (fun o => o.bmi) = none := by
      cases hf : find s.inst (sizeT id) with
      | none => rfl
      | some o => simp [Option.filter, h o ((hfl o).mp hf)]
    simp only [exec, destroyBMI, getBMI_eq hi.unlocked, Res.ok_bind, this]
  · have hf := (hfl o).mpr hl
    refine ⟨{ s with inst := erase s.inst (sizeT id) }, ?_, ?_⟩
    · have hfil : Option.filter (fun o => o.bmi) (some o) = some o := by simp [Option.filter, hb]
      simp only [exec, destroyBMI, getBMI_eq hi.unlocked, Res.ok_bind, hf, hfil,
        destroy_some hi.unlocked hf hh]
    · simp only [exec, destroy_some hi.unlocked hf hh, Res.ok_bind]

end Verif.Registry
