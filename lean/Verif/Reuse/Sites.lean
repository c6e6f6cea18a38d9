import Verif.Reuse.Spec
import Mathlib.Tactic.Ring

/-!
# Lemmas: the exchanger of a step
-/

namespace Verif.Reuse

open Spec

/-- The amount listed under a name. -/
def amount (n : Name) (l : List (Name × ℚ)) : ℚ := ((l.filter fun x => x.1 = n).map (·.2)).sum

theorem amount_append (n : Name) (a b : List (Name × ℚ)) : amount n (a ++ b) = amount n a + amount n b := by
  simp [amount]

theorem amount_cons (n : Name) (x : Name × ℚ) (l : List (Name × ℚ)) :
    amount n (x :: l) = (if x.1 = n then x.2 else 0) + amount n l := by
  by_cases h : x.1 = n <;> simp [amount, h]

theorem amount_zero (n : Name) (l : List (Name × ℚ)) (h : ∀ x ∈ l, x.1 = n → x.2 = 0) : amount n l = 0 := by
  induction l with
  | nil => rfl
  | cons x l ih =>
    rw [amount_cons, ih fun y hy => h y (List.mem_cons_of_mem _ hy)]
    by_cases hx : x.1 = n
    · rw [if_pos hx, h x List.mem_cons_self hx, add_zero]
    · rw [if_neg hx, add_zero]

theorem amount_absent (n : Name) (l : List (Name × ℚ)) (h : n ∉ l.map (·.1)) : amount n l = 0 :=
  amount_zero n l fun x hx e => absurd (e ▸ List.mem_map_of_mem hx) h

/-- The names stay where they are. -/
theorem putFirst_names (n : Name) (v : ℚ) (e : Exchange) :
    (putFirst n v e).map (fun c => c.map (·.1)) = e.map fun c => c.map (·.1) := by
  induction e with
  | nil => rfl
  | cons c l ih =>
    rw [putFirst]
    by_cases h : (c.any fun x => x.1 = n) = true
    · rw [if_pos h, List.map_cons, List.map_cons, List.map_map]
      congr 1
      apply List.map_congr_left
      intro x _
      by_cases hx : x.1 = n <;> simp [hx]
    · rw [if_neg h, List.map_cons, List.map_cons, ih]

theorem names_flatten (a b : Exchange) (h : a.map (fun c => c.map (·.1)) = b.map fun c => c.map (·.1)) :
    a.flatten.map (·.1) = b.flatten.map (·.1) := by
  rw [List.map_flatten, List.map_flatten, h]

/-- Other names keep their amounts. -/
theorem putFirst_other (n : Name) (v : ℚ) (e : Exchange) (k : Name) (hk : k ≠ n) :
    amount k (putFirst n v e).flatten = amount k e.flatten := by
  induction e with
  | nil => rfl
  | cons c l ih =>
    rw [putFirst]
    by_cases h : (c.any fun x => x.1 = n) = true
    · rw [if_pos h, List.flatten_cons, List.flatten_cons, amount_append, amount_append]
      congr 1
      clear h ih
      induction c with
      | nil => rfl
      | cons x c ih =>
        rw [List.map_cons, amount_cons, amount_cons, ih]
        by_cases hx : x.1 = n
        · have : x.1 ≠ k := fun e => hk (e.symm.trans hx)
          rw [if_pos hx, if_neg (show (x.1, v).1 ≠ k from this), if_neg this]
        · rw [if_neg hx]
    · rw [if_neg h, List.flatten_cons, List.flatten_cons, amount_append, amount_append, ih]

/-- Other entries stay. -/
theorem putFirst_mem (n : Name) (v : ℚ) (e : Exchange) (x : Name × ℚ) (hx : x ∈ (putFirst n v e).flatten)
    (hn : x.1 ≠ n) : x ∈ e.flatten := by
  induction e with
  | nil => exact hx
  | cons c l ih =>
    rw [putFirst] at hx
    rw [List.flatten_cons, List.mem_append]
    by_cases h : (c.any fun x => x.1 = n) = true
    · rw [if_pos h, List.flatten_cons, List.mem_append, List.mem_map] at hx
      rcases hx with ⟨y, hy, e⟩ | hx
      · by_cases hy' : y.1 = n
        · rw [if_pos hy'] at e
          exact absurd (by rw [← e]; exact hy') hn
        · rw [if_neg hy'] at e
          exact .inl (e ▸ hy)
      · exact .inr hx
    · rw [if_neg h, List.flatten_cons, List.mem_append] at hx
      exact hx.imp id ih

/-- In one component. -/
theorem amount_put (n : Name) (v : ℚ) (c : List (Name × ℚ)) (hn : (c.map (·.1)).Nodup) (h : n ∈ c.map (·.1)) :
    amount n (c.map fun x => if x.1 = n then (x.1, v) else x) = v := by
  induction c with
  | nil => cases h
  | cons x c ih =>
    rw [List.map_cons, amount_cons]
    rw [List.map_cons, List.nodup_cons] at hn
    by_cases hx : x.1 = n
    · rw [if_pos hx, if_pos (show (x.1, v).1 = n from hx)]
      rw [amount_absent, add_zero]
      rw [List.map_map]
      intro hm
      rw [List.mem_map] at hm
      obtain ⟨y, hy, e⟩ := hm
      apply hn.1
      rw [hx]
      by_cases hy' : y.1 = n
      · exact hy' ▸ List.mem_map_of_mem hy
      · simp [hy'] at e
    · rw [if_neg hx, if_neg hx, zero_add]
      apply ih hn.2
      rw [List.map_cons, List.mem_cons] at h
      exact h.resolve_left fun e => hx e.symm

theorem putFirst_this (n : Name) (v : ℚ) (e : Exchange) (hn : ∀ c ∈ e, (c.map (·.1)).Nodup)
    (hz : ∀ x ∈ e.flatten, x.1 = n → x.2 = 0) :
    amount n (putFirst n v e).flatten = if n ∈ e.flatten.map (·.1) then v else 0 := by
  induction e with
  | nil => rfl
  | cons c l ih =>
    have hzl : ∀ x ∈ l.flatten, x.1 = n → x.2 = 0 := fun x hx =>
      hz x (by rw [List.flatten_cons]; exact List.mem_append_right _ hx)
    rw [putFirst]
    by_cases h : (c.any fun x => x.1 = n) = true
    · have hm : n ∈ c.map (·.1) := by
        rw [List.any_eq_true] at h
        obtain ⟨x, hx, e⟩ := h
        exact of_decide_eq_true e ▸ List.mem_map_of_mem hx
      rw [if_pos h, List.flatten_cons, amount_append, amount_put n v c (hn c List.mem_cons_self) hm,
        amount_zero n _ hzl, add_zero, if_pos]
      rw [List.flatten_cons, List.map_append]
      exact List.mem_append_left _ hm
    · have hm : n ∉ c.map (·.1) := by
        intro hm
        rw [List.mem_map] at hm
        obtain ⟨x, hx, e⟩ := hm
        exact h (List.any_eq_true.2 ⟨x, hx, decide_eq_true e⟩)
      rw [if_neg h, List.flatten_cons, amount_append, amount_absent n c hm, zero_add,
        ih (fun c hc => hn c (List.mem_cons_of_mem _ hc)) hzl]
      congr 1
      rw [List.flatten_cons, List.map_append, List.mem_append]
      exact propext ⟨.inr, fun h => h.resolve_left hm⟩

theorem nodup_of_names (a b : Exchange) (h : a.map (fun c => c.map (·.1)) = b.map fun c => c.map (·.1))
    (hb : ∀ c ∈ b, (c.map (·.1)).Nodup) : ∀ c ∈ a, (c.map (·.1)).Nodup := by
  intro c hc
  have : c.map (·.1) ∈ b.map fun c => c.map (·.1) := h ▸ List.mem_map_of_mem hc
  rw [List.mem_map] at this
  obtain ⟨d, hd, e⟩ := this
  exact e ▸ hb d hd

/-- Storing all sites. -/
theorem fold_put (val : Name → ℚ) (ms : List Master) (e : Exchange) (hm : (ms.map (·.name)).Nodup)
    (hn : ∀ c ∈ e, (c.map (·.1)).Nodup) (hz : ∀ x ∈ e.flatten, x.1 ∈ ms.map (·.name) → x.2 = 0) :
    let r := ms.foldl (fun l m => putFirst m.name (val m.name) l) e
    r.map (fun c => c.map (·.1)) = e.map (fun c => c.map (·.1)) ∧
    ∀ n, amount n r.flatten =
      if n ∈ ms.map (·.name) then (if n ∈ e.flatten.map (·.1) then val n else 0) else amount n e.flatten := by
  induction ms generalizing e with
  | nil => exact ⟨rfl, fun n => by simp⟩
  | cons m ms ih =>
    rw [List.map_cons, List.nodup_cons] at hm
    have hnm := putFirst_names m.name (val m.name) e
    have hfl := names_flatten _ _ hnm
    obtain ⟨h1, h2⟩ := ih (putFirst m.name (val m.name) e) hm.2 (nodup_of_names _ _ hnm hn) (by
      intro x hx hxm
      have hne : x.1 ≠ m.name := fun e => hm.1 (e ▸ hxm)
      exact hz x (putFirst_mem _ _ _ _ hx hne) (List.mem_cons_of_mem _ hxm))
    refine ⟨h1.trans hnm, fun n => ?_⟩
    show amount n (ms.foldl _ (putFirst m.name (val m.name) e)).flatten = _
    rw [h2 n, hfl]
    by_cases hmem : n ∈ ms.map (·.name)
    · rw [if_pos hmem, if_pos (show n ∈ (m :: ms).map (·.name) from List.mem_cons_of_mem _ hmem)]
    · rw [if_neg hmem]
      by_cases hn' : n = m.name
      · subst hn'
        rw [if_pos (show m.name ∈ (m :: ms).map (·.name) from List.mem_cons_self), putFirst_this _ _ _ hn fun x hx e =>
          hz x hx (e ▸ List.mem_cons_self)]
      · rw [putFirst_other _ _ _ _ hn', if_neg]
        rw [List.map_cons, List.mem_cons]
        exact fun h => h.elim hn' hmem

/-- The exchange sites of the data base. -/
theorem ex_names (db : Db) (n : Name) :
    n ∈ (db.masters.filter fun m => m.role = .ex).map (·.name) ↔ (⟨n, .ex⟩ : Master) ∈ db.masters := by
  rw [List.mem_map]
  constructor
  · rintro ⟨⟨a, r⟩, h, rfl⟩
    rw [List.mem_filter] at h
    have := of_decide_eq_true h.2
    dsimp only at this
    subst this
    exact h.1
  · intro h
    exact ⟨_, List.mem_filter.2 ⟨h, by simp⟩, rfl⟩

/-- The stored exchanger. -/
theorem saved_names (db : Db) (tot : Name → ℚ) (e : Exchange) (hs : Sound db)
    (hn : ∀ c ∈ e, (c.map (·.1)).Nodup) :
    (saveExch db tot e).flatten.map (·.1) = e.flatten.map (·.1) ∧
    ∀ n, amount n (saveExch db tot e).flatten =
      if (⟨n, .ex⟩ : Master) ∈ db.masters ∧ n ∈ e.flatten.map (·.1) then siteTotal db.least (tot n) else 0 := by
  have h0 : (e.map fun c => c.map fun x => (x.1, (0 : ℚ))).map (fun c => c.map (·.1)) = e.map fun c => c.map (·.1) := by
    rw [List.map_map]
    apply List.map_congr_left
    intro c _
    show (c.map _).map _ = _
    rw [List.map_map]
    rfl
  have hz : ∀ x ∈ (e.map fun c => c.map fun x => (x.1, (0 : ℚ))).flatten, x.2 = 0 := by
    intro x hx
    rw [List.mem_flatten] at hx
    obtain ⟨c, hc, hx⟩ := hx
    rw [List.mem_map] at hc
    obtain ⟨d, _, rfl⟩ := hc
    rw [List.mem_map] at hx
    obtain ⟨y, _, rfl⟩ := hx
    rfl
  have hm : ((db.masters.filter fun m => m.role = .ex).map (·.name)).Nodup :=
    hs.names.sublist (List.filter_sublist.map _)
  obtain ⟨h1, h2⟩ := fold_put (fun n => siteTotal db.least (tot n)) _ (e.map fun c => c.map fun x => (x.1, (0 : ℚ))) hm
    (nodup_of_names _ _ h0 hn) (fun x hx _ => hz x hx)
  refine ⟨names_flatten _ _ (h1.trans h0), fun n => ?_⟩
  rw [saveExch]
  rw [h2 n, names_flatten _ _ h0, amount_zero n _ fun x hx _ => hz x hx]
  by_cases h : (⟨n, .ex⟩ : Master) ∈ db.masters
  · rw [if_pos ((ex_names db n).2 h)]
    by_cases hn : n ∈ e.flatten.map (·.1)
    · rw [if_pos hn, if_pos ⟨h, hn⟩]
    · rw [if_neg hn, if_neg fun h => hn h.2]
  · rw [if_neg (fun h' => h ((ex_names db n).1 h')), if_neg fun h' => h h'.1]

/-- Looking up an element. -/
theorem find_of_mem (db : Db) (hs : Sound db) (m : Master) (hm : m ∈ db.masters) : db.find m.name = some m := by
  have hn := hs.names
  rw [Db.find]
  generalize db.masters = l at hn hm
  induction l with
  | nil => cases hm
  | cons a l ih =>
    rw [List.map_cons, List.nodup_cons] at hn
    rw [List.find?_cons]
    by_cases h : a.name = m.name
    · have : a = m := by
        rcases List.mem_cons.1 hm with e | e
        · exact e.symm
        · exact absurd (h ▸ List.mem_map_of_mem e) hn.1
      rw [decide_eq_true h, this]
    · rw [decide_eq_false h]
      exact ih hn.2 ((List.mem_cons.1 hm).resolve_left fun e => h (by rw [e]))

/-- Unknowns of exchange sites. -/
def exchs (p : List (Name × ℚ)) : List Unk := p.map fun x => .exch x.1 x.2

theorem hasSite_exchs (n : Name) (p : List (Name × ℚ)) : hasSite n (exchs p) = true ↔ n ∈ p.map (·.1) := by
  rw [hasSite, exchs, List.any_map, List.any_eq_true, List.mem_map]
  constructor
  · rintro ⟨x, hx, h⟩
    exact ⟨x, hx, of_decide_eq_true h⟩
  · rintro ⟨x, hx, h⟩
    exact ⟨x, hx, decide_eq_true h⟩

theorem addSites_spec (db : Db) (hs : Sound db) (l : List (Name × ℚ)) (p : List (Name × ℚ)) (hp : (p.map (·.1)).Nodup)
    (hpe : ∀ n ∈ p.map (·.1), (⟨n, .ex⟩ : Master) ∈ db.masters) (hk : ∀ y ∈ l, ∃ m ∈ db.masters, m.name = y.1) :
    ∃ q, addSites db l (exchs p) = .ok (exchs q) ∧ (q.map (·.1)).Nodup ∧
      (∀ n, n ∈ q.map (·.1) ↔ n ∈ p.map (·.1) ∨ (n ∈ l.map (·.1) ∧ (⟨n, .ex⟩ : Master) ∈ db.masters)) ∧
      ∀ x ∈ q, x.2 = amount x.1 p + amount x.1 l := by
  induction l generalizing p with
  | nil =>
    refine ⟨p, rfl, hp, fun n => by simp, fun x hx => ?_⟩
    have : amount x.1 p = x.2 := by
      clear hpe
      induction p with
      | nil => cases hx
      | cons y p ih =>
        rw [List.map_cons, List.nodup_cons] at hp
        rw [amount_cons]
        rcases List.mem_cons.1 hx with rfl | hx
        · rw [if_pos rfl, amount_absent _ _ hp.1, add_zero]
        · rw [if_neg, zero_add, ih hp.2 hx]
          exact fun e => hp.1 (e ▸ List.mem_map_of_mem hx)
    rw [this]
    simp [amount]
  | cons y l ih =>
    obtain ⟨m, hm, hmy⟩ := hk y List.mem_cons_self
    have hkl : ∀ y ∈ l, ∃ m ∈ db.masters, m.name = y.1 := fun z hz => hk z (List.mem_cons_of_mem _ hz)
    have hf : db.find y.1 = some m := hmy ▸ find_of_mem db hs m hm
    rw [addSites, addSite, hf]
    dsimp only
    by_cases hr : m.role = .ex
    · have hme : (⟨y.1, .ex⟩ : Master) ∈ db.masters := by
        rw [← hmy, ← hr]
        exact hm
      rw [if_neg (not_not_intro hr)]
      by_cases hh : y.1 ∈ p.map (·.1)
      · rw [if_pos ((hasSite_exchs _ _).2 hh)]
        have e : (exchs p).map (Unk.addTo y.1 y.2) =
            exchs (p.map fun x => if x.1 = y.1 then (x.1, x.2 + y.2) else x) := by
          rw [exchs, exchs, List.map_map, List.map_map]
          apply List.map_congr_left
          intro x _
          by_cases hx : x.1 = y.1 <;> simp [hx, Unk.addTo]
        rw [e]
        have en : (p.map fun x => if x.1 = y.1 then (x.1, x.2 + y.2) else x).map (·.1) = p.map (·.1) := by
          rw [List.map_map]
          apply List.map_congr_left
          intro x _
          by_cases hx : x.1 = y.1 <;> simp [hx]
        have ea : ∀ n, n ∈ p.map (·.1) → amount n (p.map fun x => if x.1 = y.1 then (x.1, x.2 + y.2) else x) =
            amount n p + if y.1 = n then y.2 else 0 := by
          intro n hn
          clear e en hh ih hpe
          induction p with
          | nil => cases hn
          | cons x p ih =>
            rw [List.map_cons, List.nodup_cons] at hp
            rw [List.map_cons, amount_cons, amount_cons]
            by_cases hxn : x.1 = n
            · have hnp : n ∉ p.map (·.1) := hxn ▸ hp.1
              have hnp' : n ∉ (p.map fun x => if x.1 = y.1 then (x.1, x.2 + y.2) else x).map (·.1) := by
                rw [List.map_map, List.mem_map]
                rintro ⟨z, hz, e⟩
                apply hnp
                by_cases hz' : z.1 = y.1 <;> simp [hz'] at e
                · rw [← e, ← hz']
                  exact List.mem_map_of_mem hz
                · exact e ▸ List.mem_map_of_mem hz
              rw [amount_absent _ _ hnp, amount_absent _ _ hnp']
              by_cases hxy : x.1 = y.1
              · simp [hxy, hxy.symm.trans hxn]
              · have : ¬ y.1 = n := fun e => hxy (hxn.trans e.symm)
                have this' : ¬ n = y.1 := fun e => this e.symm
                simp [hxn, this, this']
            · rw [List.map_cons, List.mem_cons] at hn
              rw [ih hp.2 (hn.resolve_left fun e => hxn e.symm)]
              by_cases hxy : x.1 = y.1
              · have hyn : ¬ y.1 = n := fun e => hxn (hxy.trans e)
                simp [hxy, hyn]
              · simp [hxy, hxn]
        obtain ⟨q, h1, h2, h3, h4⟩ := ih _ (by rw [en]; exact hp) (by rw [en]; exact hpe) hkl
        refine ⟨q, h1, h2, fun n => ?_, fun x hx => ?_⟩
        · rw [h3, en, List.map_cons, List.mem_cons]
          constructor
          · rintro (h | h)
            · exact .inl h
            · exact .inr ⟨.inr h.1, h.2⟩
          · rintro (h | ⟨rfl | h, h'⟩)
            · exact .inl h
            · exact .inl hh
            · exact .inr ⟨h, h'⟩
        · rw [h4 x hx, amount_cons]
          by_cases hxp : x.1 ∈ p.map (·.1)
          · rw [ea _ hxp]
            ring
          · have : ¬ y.1 = x.1 := fun e => hxp (e ▸ hh)
            rw [amount_absent _ p hxp, if_neg this, amount_absent _ _ (by rw [en]; exact hxp)]
            ring
      · rw [if_neg fun h => hh ((hasSite_exchs _ _).1 h)]
        have e : exchs p ++ [.exch y.1 y.2] = exchs (p ++ [y]) := by simp [exchs]
        rw [e]
        obtain ⟨q, h1, h2, h3, h4⟩ := ih (p ++ [y]) (by
          rw [List.map_append, List.nodup_append]
          refine ⟨hp, by simp, fun a ha b hb => ?_⟩
          rw [List.map_singleton, List.mem_singleton] at hb
          rintro rfl
          exact hh (hb ▸ ha)) (by
          intro n hn
          rw [List.map_append, List.mem_append, List.map_singleton, List.mem_singleton] at hn
          exact hn.elim (hpe n) fun e => e ▸ hme) hkl
        refine ⟨q, h1, h2, fun n => ?_, fun x hx => ?_⟩
        · rw [h3]
          simp only [List.map_append, List.map_cons, List.map_nil, List.mem_append, List.mem_cons, List.not_mem_nil, or_false]
          constructor
          · rintro ((h | h) | h)
            · exact .inl h
            · exact .inr ⟨.inl h, h ▸ hme⟩
            · exact .inr ⟨.inr h.1, h.2⟩
          · rintro (h | ⟨h | h, h'⟩)
            · exact .inl (.inl h)
            · exact .inl (.inr h)
            · exact .inr ⟨h, h'⟩
        · rw [h4 x hx, amount_append, amount_cons, amount_cons]
          simp only [amount, List.filter_nil, List.map_nil, List.sum_nil]
          ring
    · rw [if_pos hr]
      obtain ⟨q, h1, h2, h3, h4⟩ := ih p hp hpe hkl
      have hno : (⟨y.1, .ex⟩ : Master) ∉ db.masters := by
        intro h
        have := find_of_mem db hs _ h
        rw [hf] at this
        exact hr (by rw [Option.some.inj this])
      refine ⟨q, h1, h2, fun n => ?_, fun x hx => ?_⟩
      · rw [h3, List.map_cons, List.mem_cons]
        constructor
        · rintro (h | h)
          · exact .inl h
          · exact .inr ⟨.inr h.1, h.2⟩
        · rintro (h | ⟨rfl | h, h'⟩)
          · exact .inl h
          · exact absurd h' hno
          · exact .inr ⟨h, h'⟩
      · rw [h4 x hx, amount_cons, if_neg, zero_add]
        rintro e
        exact hno (e ▸ ((h3 x.1).1 (List.mem_map_of_mem hx)).elim (hpe _) fun h => h.2)

end Verif.Reuse
