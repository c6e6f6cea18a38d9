import Verif.SelOut.Spec
import Verif.Grid.Lemmas

/-! # Invariant of selected-output tables -/

namespace Verif.SelOut

open Verif.OMap Verif.Grid

theorem length_insert_new {κ ν : Type} [LinearOrder κ] (m : SMap κ ν) (k : κ) (v : ν)
    (h : find m k = none) : (insert m k v).length = m.length + 1 := by
  induction m with
  | nil => rfl
  | cons p m ih =>
    obtain ⟨a, w⟩ := p
    simp only [find] at h
    split at h
    · simp at h
    · rename_i hne
      simp only [OMap.insert]
      rw [if_neg hne]
      split
      · rfl
      · simp [ih h]

theorem Row.value_append_self (r : Row) (h : Name) (v : Var) : Row.value (r ++ [(h, v)]) h = v := by
  simp [Row.value]

theorem Row.value_append_ne (r : Row) {h k : Name} (v : Var) (hne : k ≠ h) :
    Row.value (r ++ [(k, v)]) h = Row.value r h := by
  simp [Row.value, hne]

theorem Row.value_none (r : Row) (h : Name) (hn : ∀ p ∈ r, p.1 ≠ h) : Row.value r h = .empty := by
  have : r.reverse.find? (fun p => p.1 = h) = none := by
    rw [List.find?_eq_none]
    intro p hp
    simpa using hn p (List.mem_reverse.mp hp)
  simp only [Row.value, this]

/-- A column represents heading `h` of the abstract table. -/
def ColRel (a : Abs) (h : Name) (col : List Var) : Prop :=
  (∀ (r : Nat) (row : Row), a.done[r]? = some row → col[r]? = some (Row.value row h)) ∧
  ((col.length = a.done.length ∧ ∀ p ∈ a.cur, p.1 ≠ h) ∨
   (col.length = a.done.length + 1 ∧ col[a.done.length]? = some (Row.value a.cur h)))

/-- The table represents the abstract table. -/
structure Rel (t : Table) (a : Abs) : Prop where
  heads : t.heads = a.heads
  nodup : a.heads.Nodup
  index : ∀ (k : Name) (c : Nat), find t.index k = some c ↔ a.heads[c]? = some k
  ilen  : t.index.length = a.heads.length
  clen  : t.cols.length = a.heads.length
  nrow  : t.nRow = a.done.length
  col   : ∀ (c : Nat) (h : Name) (col : List Var), a.heads[c]? = some h → t.cols[c]? = some col →
            ColRel a h col
  kdone : ∀ row ∈ a.done, ∀ p ∈ row, p.1 ∈ a.heads
  kcur  : ∀ p ∈ a.cur, p.1 ∈ a.heads

theorem rel_new : Rel Table.new Abs.new := by
  refine ⟨rfl, List.nodup_nil, ?_, rfl, rfl, rfl, ?_, ?_, ?_⟩
  · intro k c; simp [Table.new, Abs.new, find]
  · intro c h col hc; simp [Abs.new] at hc
  · intro r hr; simp [Abs.new] at hr
  · intro r hr; simp [Abs.new] at hr

theorem index_none {t : Table} {a : Abs} (hr : Rel t a) (k : Name) :
    find t.index k = none ↔ k ∉ a.heads := by
  constructor
  · intro h hm
    obtain ⟨c, hc⟩ := List.getElem?_of_mem hm
    rw [(hr.index k c).mpr hc] at h
    simp at h
  · intro h
    cases hf : find t.index k with
    | none => rfl
    | some c => exact absurd (List.mem_of_getElem? ((hr.index k c).mp hf)) h

theorem rel_push {t : Table} {a : Abs} (hr : Rel t a) (k : Name) (v : Var) :
    ∃ t', t.pushBack k v = .ok t' ∧ Rel t' (a.step (.push k v)) := by
  by_cases hk : k ∈ a.heads
  · -- existing column
    obtain ⟨c, hc⟩ := List.getElem?_of_mem hk
    have hf := (hr.index k c).mpr hc
    have hlt : c < t.cols.length := by
      rw [hr.clen]; exact (List.getElem?_eq_some_iff.mp hc).1
    obtain ⟨col, hcol⟩ : ∃ col, t.cols[c]? = some col := ⟨_, List.getElem?_eq_getElem hlt⟩
    obtain ⟨h1, h2⟩ := hr.col c k col hc hcol
    have hstep : a.step (.push k v) = ⟨a.heads, a.done, a.cur ++ [(k, v)]⟩ := by
      simp [Abs.step, hk]
    -- the new column
    have main : ∀ new : List Var,
        (∀ (r : Nat) (row : Row), a.done[r]? = some row → new[r]? = some (Row.value row k)) →
        new.length = a.done.length + 1 → new[a.done.length]? = some v →
        Rel { t with cols := t.cols.set c new } (a.step (.push k v)) := by
      intro new n1 n2 n3
      rw [hstep]
      refine ⟨hr.heads, hr.nodup, hr.index, hr.ilen, by simpa using hr.clen, hr.nrow, ?_, hr.kdone, ?_⟩
      · intro c' h' col' hc' hcol'
        by_cases e : c = c'
        · subst e
          rw [hc] at hc'
          simp only [Option.some.injEq] at hc'
          subst hc'
          simp only [List.getElem?_set_self hlt, Option.some.injEq] at hcol'
          subst hcol'
          exact ⟨n1, .inr ⟨n2, by rw [n3, Row.value_append_self]⟩⟩
        · simp only [List.getElem?_set_ne e] at hcol'
          have hne : k ≠ h' := by
            intro e'
            subst e'
            exact e ((List.getElem?_inj (by
              exact (List.getElem?_eq_some_iff.mp hc).1) hr.nodup).mp (by rw [hc, hc']))
          obtain ⟨m1, m2⟩ := hr.col c' h' col' hc' hcol'
          refine ⟨m1, ?_⟩
          rcases m2 with ⟨m2, m3⟩ | ⟨m2, m3⟩
          · refine .inl ⟨m2, fun p hp => ?_⟩
            rcases List.mem_append.mp hp with hp | hp
            · exact m3 p hp
            · simp only [List.mem_singleton] at hp
              subst hp
              exact hne
          · refine .inr ⟨m2, ?_⟩
            simp only
            rw [Row.value_append_ne _ _ hne]
            exact m3
      · intro p hp
        rcases List.mem_append.mp hp with hp | hp
        · exact hr.kcur p hp
        · simp only [List.mem_singleton] at hp
          subst hp
          exact hk
    rcases h2 with ⟨l1, _⟩ | ⟨l1, _⟩
    · refine ⟨{ t with cols := t.cols.set c (col ++ [v]) }, ?_, main _ ?_ ?_ ?_⟩
      · simp only [Table.pushBack, hf, hcol]
        rw [if_pos (by rw [l1, hr.nrow])]
      · intro r row hrow
        have : r < col.length := by
          rw [l1]; exact (List.getElem?_eq_some_iff.mp hrow).1
        rw [List.getElem?_append_left this]
        exact h1 r row hrow
      · simp [l1]
      · rw [← l1]; simp
    · refine ⟨{ t with cols := t.cols.set c (col.set t.nRow v) }, ?_, main _ ?_ ?_ ?_⟩
      · simp only [Table.pushBack, hf, hcol]
        rw [if_neg (by rw [l1, hr.nrow]; omega), if_pos (by rw [l1, hr.nrow]; omega)]
      · intro r row hrow
        have : r < a.done.length := (List.getElem?_eq_some_iff.mp hrow).1
        rw [List.getElem?_set_ne (by rw [hr.nrow]; omega)]
        exact h1 r row hrow
      · simp [l1]
      · rw [hr.nrow, List.getElem?_set_self (by omega)]
  · -- new column
    have hf := (index_none hr k).mpr hk
    have hstep : a.step (.push k v) = ⟨a.heads ++ [k], a.done, a.cur ++ [(k, v)]⟩ := by
      simp [Abs.step, hk]
    refine ⟨{ t with
      index := insert t.index k t.index.length
      heads := t.heads ++ [k]
      cols := t.cols ++ [List.replicate t.nRow .empty ++ [v]] }, by simp only [Table.pushBack, hf], ?_⟩
    rw [hstep]
    refine ⟨by simp [hr.heads], ?_, ?_, ?_, by simp [hr.clen], hr.nrow, ?_, ?_, ?_⟩
    · exact List.nodup_append.mpr ⟨hr.nodup, by simp, by
        intro x hx y hy e
        simp only [List.mem_singleton] at hy
        subst hy; subst e; exact hk hx⟩
    · intro k' c
      simp only [find_insert]
      by_cases e : k' = k
      · subst e
        rw [if_pos rfl, hr.ilen]
        simp only [Option.some.injEq]
        constructor
        · intro e; subst e; simp
        · intro h
          by_contra hne
          rcases Nat.lt_or_ge c a.heads.length with hlt | hge
          · rw [List.getElem?_append_left hlt] at h
            exact hk (List.mem_of_getElem? h)
          · have : (a.heads ++ [k']).length ≤ c := by simp; omega
            rw [List.getElem?_eq_none this] at h
            simp at h
      · rw [if_neg e, hr.index k' c]
        rcases Nat.lt_or_ge c a.heads.length with hlt | hge
        · rw [List.getElem?_append_left hlt]
        · rw [List.getElem?_eq_none hge]
          constructor
          · intro h; simp at h
          · intro h
            have := List.mem_of_getElem? h
            rw [List.getElem?_append_right hge] at h
            rw [List.getElem?_singleton] at h
            split at h
            · simp only [Option.some.injEq] at h; exact absurd h.symm e
            · simp at h
    · simp only [length_insert_new _ _ _ hf, hr.ilen, List.length_append, List.length_singleton]
    · intro c h col hc hcol
      simp only at hc hcol
      rcases Nat.lt_or_ge c a.heads.length with hlt | hge
      · rw [List.getElem?_append_left hlt] at hc
        rw [List.getElem?_append_left (by rw [hr.clen]; exact hlt)] at hcol
        have hne : k ≠ h := by
          intro e; subst e; exact hk (List.mem_of_getElem? hc)
        obtain ⟨m1, m2⟩ := hr.col c h col hc hcol
        refine ⟨m1, ?_⟩
        rcases m2 with ⟨m2, m3⟩ | ⟨m2, m3⟩
        · refine .inl ⟨m2, fun p hp => ?_⟩
          rcases List.mem_append.mp hp with hp | hp
          · exact m3 p hp
          · simp only [List.mem_singleton] at hp
            subst hp
            exact hne
        · refine .inr ⟨m2, ?_⟩
          simp only
          rw [Row.value_append_ne _ _ hne]
          exact m3
      · have hc0 : c = a.heads.length := by
          have := (List.getElem?_eq_some_iff.mp hc).1
          simp at this; omega
        subst hc0
        rw [List.getElem?_append_right (Nat.le_refl _)] at hc
        rw [List.getElem?_append_right (by rw [hr.clen])] at hcol
        simp only [Nat.sub_self, List.getElem?_cons_zero, Option.some.injEq] at hc
        rw [hr.clen] at hcol
        simp only [Nat.sub_self, List.getElem?_cons_zero, Option.some.injEq] at hcol
        subst hc; subst hcol
        refine ⟨?_, .inr ⟨by simp [hr.nrow], ?_⟩⟩
        · intro r row hrow
          have : r < a.done.length := (List.getElem?_eq_some_iff.mp hrow).1
          rw [List.getElem?_append_left (by simp [hr.nrow]; exact this)]
          rw [Row.value_none row k]
          · rw [List.getElem?_replicate]; simp [hr.nrow, this]
          · intro p hp e
            subst e
            exact hk (hr.kdone row (List.mem_of_getElem? hrow) p hp)
        · simp only
          rw [Row.value_append_self, ← hr.nrow]
          simp
    · intro row hrow p hp
      exact List.mem_append_left _ (hr.kdone row hrow p hp)
    · intro p hp
      rcases List.mem_append.mp hp with hp | hp
      · exact List.mem_append_left _ (hr.kcur p hp)
      · simp only [List.mem_singleton] at hp
        subst hp
        simp

theorem rel_endRow_full {t : Table} {a : Abs} (hr : Rel t a) :
    ∃ t', t.endRow = .ok t' ∧ Rel t' (a.step .endRow) ∧ ∀ col ∈ t'.cols, col.length = t'.nRow := by
  by_cases h0 : a.heads = []
  · refine ⟨t, ?_, ?_, ?_⟩
    · simp [Table.endRow, Table.colCount, hr.heads, h0]
    · simpa [Abs.step, h0] using hr
    · have : t.cols = [] := List.eq_nil_of_length_eq_zero (by rw [hr.clen, h0]; rfl)
      simp [this]
  · have hpos : a.heads.length ≠ 0 := fun h => h0 (List.eq_nil_of_length_eq_zero h)
    have hstep : a.step .endRow = ⟨a.heads, a.done ++ [a.cur], []⟩ := by simp [Abs.step, h0]
    have key : ∀ (c : Nat) (h : Name) (old : List Var), a.heads[c]? = some h →
        t.cols[c]? = some old → (growTo (t.nRow + 1) old).length = a.done.length + 1 ∧
          (growTo (t.nRow + 1) old)[a.done.length]? = some (Row.value a.cur h) ∧
          ∀ r, r < a.done.length → (growTo (t.nRow + 1) old)[r]? = old[r]? := by
      intro c h old hc hold
      obtain ⟨m1, m2⟩ := hr.col c h old hc hold
      unfold growTo
      rcases m2 with ⟨m2, m3⟩ | ⟨m2, m3⟩
      · rw [if_pos (by rw [m2, hr.nrow]; omega)]
        refine ⟨by simp [m2, hr.nrow], ?_, ?_⟩
        · rw [List.getElem?_append_right (by omega), Row.value_none _ _ m3, m2, hr.nrow]
          simp
        · intro r hlt
          rw [List.getElem?_append_left (by omega)]
      · rw [if_neg (by rw [m2, hr.nrow]; omega)]
        exact ⟨m2, m3, fun r _ => rfl⟩
    refine ⟨{ t with nRow := t.nRow + 1, cols := t.cols.map (growTo (t.nRow + 1)) }, ?_, ?_, ?_⟩
    rotate_left 2
    · intro col hcol
      obtain ⟨old, hold, rfl⟩ := List.mem_map.mp hcol
      obtain ⟨c, hc⟩ := List.getElem?_of_mem hold
      have hlt : c < a.heads.length := by
        rw [← hr.clen]; exact (List.getElem?_eq_some_iff.mp hc).1
      rw [(key c _ old (List.getElem?_eq_getElem hlt) hc).1, hr.nrow]
    · unfold Table.endRow Table.colCount
      rw [hr.heads, if_neg hpos, if_neg (by rw [hr.clen]; omega)]
      have e1 : t.cols.take a.heads.length = t.cols := by
        rw [← hr.clen]; exact List.take_length
      have e2 : t.cols.drop a.heads.length = [] := by
        rw [← hr.clen]; exact List.drop_length
      rw [e1, e2, List.append_nil]
    · rw [hstep]
      refine ⟨hr.heads, hr.nodup, hr.index, hr.ilen, by simp [hr.clen], by simp [hr.nrow], ?_, ?_, by simp⟩
      · intro c h col hc hcol
        simp only [List.getElem?_map, Option.map_eq_some_iff] at hcol
        obtain ⟨old, hold, rfl⟩ := hcol
        obtain ⟨m1, m2⟩ := hr.col c h old hc hold
        obtain ⟨k1, k2, k3⟩ := key c h old hc hold
        refine ⟨?_, .inl ⟨by simpa using k1, by simp⟩⟩
        intro r row hrow
        simp only at hrow
        rcases Nat.lt_or_ge r a.done.length with hlt | hge
        · rw [List.getElem?_append_left hlt] at hrow
          rw [k3 r hlt]
          exact m1 r row hrow
        · have hre : r = a.done.length := by
            have := (List.getElem?_eq_some_iff.mp hrow).1
            simp at this; omega
          subst hre
          rw [List.getElem?_append_right (Nat.le_refl _)] at hrow
          simp only [Nat.sub_self, List.getElem?_cons_zero, Option.some.injEq] at hrow
          subst hrow
          exact k2
      · intro row hrow p hp
        rcases List.mem_append.mp hrow with h | h
        · exact hr.kdone row h p hp
        · simp only [List.mem_singleton] at h
          subst h
          exact hr.kcur p hp

theorem rel_endRow {t : Table} {a : Abs} (hr : Rel t a) :
    ∃ t', t.endRow = .ok t' ∧ Rel t' (a.step .endRow) := by
  obtain ⟨t', h1, h2, _⟩ := rel_endRow_full hr
  exact ⟨t', h1, h2⟩

theorem rel_step {t : Table} {a : Abs} (hr : Rel t a) (op : Op) :
    ∃ t', t.step op = .ok t' ∧ Rel t' (a.step op) := by
  cases op with
  | push h v => exact rel_push hr h v
  | endRow => exact rel_endRow hr

theorem rel_run {t : Table} {a : Abs} (hr : Rel t a) (ops : List Op) :
    ∃ t', ops.foldlM Table.step t = .ok t' ∧ Rel t' (ops.foldl Abs.step a) := by
  induction ops generalizing t a with
  | nil => exact ⟨t, rfl, hr⟩
  | cons op ops ih =>
    obtain ⟨t1, h1, h2⟩ := rel_step hr op
    obtain ⟨t2, h3, h4⟩ := ih h2
    refine ⟨t2, ?_, h4⟩
    rw [List.foldlM_cons, h1]
    exact h3

theorem rel_cell {t : Table} {a : Abs} (hr : Rel t a) {c : Nat} {h : Name}
    (hc : a.heads[c]? = some h) {r : Nat} {row : Row} (hrow : a.done[r]? = some row) :
    ∃ col, t.cols[c]? = some col ∧ col[r]? = some (Row.value row h) ∧ t.nRow ≤ col.length := by
  have hlt : c < t.cols.length := by
    rw [hr.clen]; exact (List.getElem?_eq_some_iff.mp hc).1
  obtain ⟨col, hcol⟩ : ∃ col, t.cols[c]? = some col := ⟨_, List.getElem?_eq_getElem hlt⟩
  obtain ⟨m1, m2⟩ := hr.col c h col hc hcol
  exact ⟨col, hcol, m1 r row hrow, by rw [hr.nrow]; rcases m2 with m | m <;> omega⟩

theorem rel_get {t : Table} {a : Abs} (hr : Rel t a) (r c : Int) : t.get r c = .ok (a.get r c) := by
  unfold Table.get Abs.get Table.rowCount Table.colCount
  rw [hr.heads, hr.nrow]
  by_cases hr0 : r < 0
  · simp [hr0]
  · by_cases h0 : a.heads = []
    · simp [h0, hr0]
    · have hpos : a.heads.length ≠ 0 := fun h => h0 (List.eq_nil_of_length_eq_zero h)
      rw [if_pos hpos]
      by_cases hrb : (a.done.length : Int) < r
      · have A : r < 0 ∨ ((a.done.length + 1 : Nat) : Int) ≤ r := by push_cast; omega
        rw [if_pos A, if_pos (by simp [hrb])]
      · have A : ¬ (r < 0 ∨ ((a.done.length + 1 : Nat) : Int) ≤ r) := by push_cast; omega
        have B : ¬ (r < 0 ∨ a.heads = [] ∨ (a.done.length : Int) < r) := by simp [hr0, h0, hrb]
        rw [if_neg A, if_neg B]
        by_cases hc0 : c < 0
        · rw [if_pos (.inl hc0), if_pos hc0]
        · rw [if_neg hc0]
          rcases Nat.lt_or_ge c.toNat a.heads.length with hlt | hge
          · rw [if_neg (by omega)]
            obtain ⟨h, hh⟩ : ∃ h, a.heads[c.toNat]? = some h := ⟨_, List.getElem?_eq_getElem hlt⟩
            rw [hh]
            have hci : ((c.toNat : Nat) : Int) = c := by omega
            by_cases hrz : r = 0
            · subst hrz
              rw [if_neg (by simp)]
              have e := idx_nat hh
              rw [hci] at e
              simp [e]
            · rw [if_pos hrz]
              have hrlt : (r - 1).toNat < a.done.length := by omega
              obtain ⟨row, hrow⟩ : ∃ row, a.done[(r - 1).toNat]? = some row :=
                ⟨_, List.getElem?_eq_getElem hrlt⟩
              obtain ⟨col, c1, c2, _⟩ := rel_cell hr hh hrow
              have e1 := idx_nat c1
              rw [hci] at e1
              have e2 := idx_nat c2
              rw [show (((r - 1).toNat : Nat) : Int) = r - 1 by omega] at e2
              simp only [e1, e2, Out.ok_bind, hrz, if_false, hrow]
          · rw [if_pos (by omega), List.getElem?_eq_none hge]

end Verif.SelOut
