import Verif.Reuse.Sites

/-!
# Lemmas: which unknowns there are
-/

namespace Verif.Reuse

open Spec

/-- The unknowns, without amounts, for exchange sites in the order `ns`. -/
def skeleton (db : Db) (k : Knobs) (c : Cell) (ns : List Name) : List Unk :=
  (setupSolution db c).map wipe ++ ((setupBase c).map wipe ++ ((ns.map fun n => Unk.exch n 0) ++
    ((setupPP c).map wipe ++ ((setupGas db k c).map wipe ++ (setupSS db c).map wipe))))

/-- The unknowns are those of the cell. -/
def Fits (db : Db) (k : Knobs) (c : Cell) (xs : List Unk) : Prop :=
  ∃ ns : List Name, ns.Nodup ∧ (∀ n, n ∈ ns ↔ n ∈ sites db c) ∧ xs.map wipe = skeleton db k c ns

theorem Fits.calc {db : Db} {k : Knobs} {c : Cell} {xs : List Unk} (h : Fits db k c xs) {f : List Unk → List Unk}
    (hf : Calculation f) : Fits db k c (f xs) := by
  obtain ⟨ns, h1, h2, h3⟩ := h
  exact ⟨ns, h1, h2, (hf xs).trans h3⟩

theorem mem_sites (db : Db) (c : Cell) (n : Name) (h : n ∈ sites db c) : (⟨n, .ex⟩ : Master) ∈ db.masters := by
  rw [sites] at h
  cases hc : c.exch with
  | none => rw [hc] at h; cases h
  | some e =>
    rw [hc, List.mem_filter] at h
    exact of_decide_eq_true h.2

theorem site_total (db : Db) (c : Cell) (hr : Ready db c) (n : Name) (h : n ∈ sites db c) :
    db.least < c.tot n := (hr.sites _ (mem_sites db c n h) rfl).2 h

/-- The unknowns of the exchange sites of a cell. -/
theorem setupExchange_spec (db : Db) (hs : Sound db) (c : Cell) (hr : Ready db c) :
    ∃ ns : List Name, ns.Nodup ∧ (∀ n, n ∈ ns ↔ n ∈ sites db c) ∧
      setupExchange db c = .ok (ns.map fun n => .exch n (c.tot n)) := by
  cases hc : c.exch with
  | none =>
    refine ⟨[], List.nodup_nil, fun n => ?_, ?_⟩
    · rw [sites, hc]
    · rw [setupExchange, hc]
      rfl
  | some e =>
    have hk := hr.known e hc
    obtain ⟨h1, h2⟩ := saved_names db c.tot e hs fun c hc => (hk c hc).1
    obtain ⟨q, e1, e2, e3, e4⟩ := addSites_spec db hs (saveExch db c.tot e).flatten [] List.nodup_nil
      (fun n hn => by cases hn) (by
        intro y hy
        have : y.1 ∈ e.flatten.map (·.1) := h1 ▸ List.mem_map_of_mem hy
        rw [List.mem_map] at this
        obtain ⟨z, hz, e⟩ := this
        rw [List.mem_flatten] at hz
        obtain ⟨x, hx, hz⟩ := hz
        rw [← e]
        exact (hk x hx).2 z hz)
    have hmem : ∀ n, n ∈ q.map (·.1) ↔ n ∈ sites db c := by
      intro n
      rw [e3, h1, sites, hc]
      show _ ↔ n ∈ List.filter _ _
      rw [List.mem_filter, decide_eq_true_iff]
      constructor
      · rintro (h | h)
        · cases h
        · exact h
      · exact .inr
    refine ⟨q.map (·.1), e2, hmem, ?_⟩
    rw [setupExchange, hc]
    show addSites db (saveExch db c.tot e).flatten [] = _
    have : addSites db (saveExch db c.tot e).flatten [] = .ok (exchs q) := e1
    rw [this, exchs, List.map_map]
    congr 1
    apply List.map_congr_left
    intro x hx
    have hx' := (hmem x.1).1 (List.mem_map_of_mem hx)
    have hx'' := hx'
    rw [sites, hc] at hx''
    have hx3 := List.mem_filter.1 hx''
    have hv := e4 x hx
    rw [h2, if_pos ⟨of_decide_eq_true hx3.2, hx3.1⟩, siteTotal, if_neg (not_le.2 (site_total db c hr _ hx'))] at hv
    show Unk.exch x.1 x.2 = Unk.exch x.1 (c.tot x.1)
    rw [hv]
    simp [amount]

/-- A model built anew. -/
theorem build_spec (db : Db) (hs : Sound db) (k : Knobs) (c : Cell) (hr : Ready db c) :
    ∃ ns : List Name, ns.Nodup ∧ (∀ n, n ∈ ns ↔ n ∈ sites db c) ∧
      build db k c = .ok (setupSolution db c ++ (setupBase c ++ ((ns.map fun n => .exch n (c.tot n)) ++
        (setupPP c ++ (setupGas db k c ++ setupSS db c))))) := by
  obtain ⟨ns, h1, h2, h3⟩ := setupExchange_spec db hs c hr
  refine ⟨ns, h1, h2, ?_⟩
  rw [build, h3]
  rfl

theorem wipe_exch (c : Cell) (ns : List Name) :
    (ns.map fun n => Unk.exch n (c.tot n)).map wipe = ns.map fun n => Unk.exch n 0 := by
  rw [List.map_map]
  rfl

theorem fits_build (db : Db) (hs : Sound db) (k : Knobs) (c : Cell) (hr : Ready db c) {xs : List Unk}
    (h : build db k c = .ok xs) : Fits db k c xs := by
  obtain ⟨ns, h1, h2, h3⟩ := build_spec db hs k c hr
  rw [h3] at h
  cases h
  refine ⟨ns, h1, h2, ?_⟩
  simp only [List.map_append, wipe_exch, skeleton]

/-! ## Keeping the unknowns -/

theorem of_wipe (m : Master) (u : Unk) : m.of (wipe u) = m.of u := by cases u <;> rfl

theorem any_wipe (f : Unk → Bool) (hf : ∀ u, f (wipe u) = f u) (xs : List Unk) : (xs.map wipe).any f = xs.any f := by
  rw [List.any_map]
  congr 1
  funext u
  exact hf u

/-- New totals for some master species. -/
def upd (tot : Name → ℚ) (ms : List Master) : Unk → Unk
  | .mb n v => .mb n (if (⟨n, .aq⟩ : Master) ∈ ms ∧ 0 < tot n then tot n else v)
  | .exch n v => .exch n (if (⟨n, .ex⟩ : Master) ∈ ms ∧ 0 < tot n then tot n else v)
  | u => u

theorem upd_nil (tot : Name → ℚ) (u : Unk) : upd tot [] u = u := by cases u <;> simp [upd]

theorem upd_skip (tot : Name → ℚ) (m : Master) (ms : List Master) (h : m.role = .skip ∨ ¬ 0 < tot m.name) (u : Unk) :
    upd tot (m :: ms) u = upd tot ms u := by
  cases u with
  | mb n v =>
    simp only [upd, List.mem_cons]
    have : ((⟨n, .aq⟩ : Master) = m ∨ (⟨n, .aq⟩ : Master) ∈ ms) ∧ 0 < tot n ↔ (⟨n, .aq⟩ : Master) ∈ ms ∧ 0 < tot n := by
      constructor
      · rintro ⟨rfl | h', hp⟩
        · exact absurd hp (h.resolve_left fun e => by cases e)
        · exact ⟨h', hp⟩
      · exact fun h => ⟨.inr h.1, h.2⟩
    simp only [this]
  | exch n v =>
    simp only [upd, List.mem_cons]
    have : ((⟨n, .ex⟩ : Master) = m ∨ (⟨n, .ex⟩ : Master) ∈ ms) ∧ 0 < tot n ↔ (⟨n, .ex⟩ : Master) ∈ ms ∧ 0 < tot n := by
      constructor
      · rintro ⟨rfl | h', hp⟩
        · exact absurd hp (h.resolve_left fun e => by cases e)
        · exact ⟨h', hp⟩
      · exact fun h => ⟨.inr h.1, h.2⟩
    simp only [this]
  | _ => rfl

theorem upd_cons (tot : Name → ℚ) (m : Master) (ms : List Master) (h : 0 < tot m.name) (u : Unk) :
    upd tot ms (if m.of u then u.put (tot m.name) else u) = upd tot (m :: ms) u := by
  obtain ⟨k, r⟩ := m
  cases u with
  | mb n v =>
    by_cases hm : (⟨k, r⟩ : Master).of (.mb n v) = true
    · rw [if_pos hm]
      have hm' : r = .aq ∧ n = k := of_decide_eq_true hm
      obtain ⟨rfl, rfl⟩ := hm'
      simp only [Unk.put, upd, List.mem_cons, true_or, true_and]
      rw [if_pos h, ite_self]
    · rw [if_neg hm]
      have hm' : ¬ (r = .aq ∧ n = k) := fun e => hm (decide_eq_true e)
      have : (⟨n, .aq⟩ : Master) ≠ ⟨k, r⟩ := fun e => hm' (by injection e with a b; exact ⟨b.symm, a⟩)
      simp only [upd, List.mem_cons, this, false_or]
  | exch n v =>
    by_cases hm : (⟨k, r⟩ : Master).of (.exch n v) = true
    · rw [if_pos hm]
      have hm' : r = .ex ∧ n = k := of_decide_eq_true hm
      obtain ⟨rfl, rfl⟩ := hm'
      simp only [Unk.put, upd, List.mem_cons, true_or, true_and]
      rw [if_pos h, ite_self]
    · rw [if_neg hm]
      have hm' : ¬ (r = .ex ∧ n = k) := fun e => hm (decide_eq_true e)
      have : (⟨n, .ex⟩ : Master) ≠ ⟨k, r⟩ := fun e => hm' (by injection e with a b; exact ⟨b.symm, a⟩)
      simp only [upd, List.mem_cons, this, false_or]
  | _ => rfl

theorem put_wipe (m : Master) (v : ℚ) (xs : List Unk) :
    (xs.map fun u => if m.of u then u.put v else u).map wipe = xs.map wipe := by
  rw [List.map_map]
  apply List.map_congr_left
  intro u _
  show wipe (if m.of u then u.put v else u) = wipe u
  split
  · cases u <;> rfl
  · rfl

theorem quickTotals_spec (tot : Name → ℚ) (ms : List Master) (xs : List Unk)
    (h : ∀ m ∈ ms, m.role ≠ .skip → 0 < tot m.name → xs.any m.of = true) :
    quickTotals tot ms xs = .ok (xs.map (upd tot ms)) := by
  induction ms generalizing xs with
  | nil =>
    rw [quickTotals, show upd tot [] = id from funext (upd_nil tot), List.map_id]
  | cons m ms ih =>
    have hl : ∀ x ∈ ms, x.role ≠ .skip → 0 < tot x.name → xs.any x.of = true := fun x hx =>
      h x (List.mem_cons_of_mem _ hx)
    rw [quickTotals]
    by_cases hr : m.role = .skip
    · rw [if_pos hr, ih xs hl, show upd tot (m :: ms) = upd tot ms from funext (upd_skip tot m ms (.inl hr))]
    · rw [if_neg hr]
      by_cases hp : 0 < tot m.name
      · rw [if_pos hp, if_pos (h m List.mem_cons_self hr hp), ih, List.map_map]
        · congr 1
          apply List.map_congr_left
          intro u _
          exact upd_cons tot m ms hp u
        · intro x hx hxr hxp
          rw [← any_wipe _ (of_wipe x), put_wipe, any_wipe _ (of_wipe x)]
          exact hl x hx hxr hxp
      · rw [if_neg hp, ih xs hl, show upd tot (m :: ms) = upd tot ms from funext (upd_skip tot m ms (.inr hp))]

/-- New numbers of a mineral. -/
def newPP (c : Cell) : Unk → Unk
  | .pp n a s d b =>
    match (c.pp.getD []).find? fun p => p.name = n with
    | none => .pp n a s d b
    | some p => .pp n p.moles p.si p.delta p.dissolveOnly
  | u => u

theorem quickPP_spec (c : Cell) (xs : List Unk)
    (h : ∀ n a s d b, Unk.pp n a s d b ∈ xs → ∃ p ∈ c.pp.getD [], p.name = n) :
    quickPP c xs = .ok (xs.map (newPP c)) := by
  induction xs with
  | nil => rfl
  | cons u l ih =>
    have ih := ih fun n a s d b hm => h n a s d b (List.mem_cons_of_mem _ hm)
    cases u with
    | pp n a s d b =>
      obtain ⟨p, hp, hn⟩ := h n a s d b List.mem_cons_self
      rw [quickPP]
      cases hc : c.pp with
      | none => rw [hc] at hp; cases hp
      | some ps =>
        rw [hc] at hp
        have hsome : (ps.find? fun p => p.name = n).isSome = true := by
          rw [List.find?_isSome]
          exact ⟨p, hp, decide_eq_true hn⟩
        obtain ⟨q, hq⟩ := Option.isSome_iff_exists.1 hsome
        dsimp only
        rw [hq, ih]
        show Res.ok _ = Res.ok _
        congr 1
        rw [List.map_cons]
        congr 1
        rw [newPP, hc]
        show _ = match (ps.find? fun p => p.name = n) with | none => _ | some p => _
        rw [hq]
    | _ => rw [quickPP, ih]; · rfl
           · intro _ _ _ _ _ e; cases e

/-- Lists with the same unknowns become the same. -/
theorem map_of_wipe {α : Type} (g : Unk → Unk) (f : α → Unk) (xs : List Unk) (l : List α)
    (h : xs.map wipe = (l.map f).map wipe) (hg : ∀ u, ∀ x ∈ l, wipe u = wipe (f x) → g u = f x) : xs.map g = l.map f := by
  induction xs generalizing l with
  | nil =>
    cases l with
    | nil => rfl
    | cons x l => cases h
  | cons u xs ih =>
    cases l with
    | nil => cases h
    | cons x l =>
      rw [List.map_cons, List.map_cons, List.map_cons] at h
      injection h with h1 h2
      rw [List.map_cons, List.map_cons, hg u x List.mem_cons_self h1,
        ih l h2 fun u y hy => hg u y (List.mem_cons_of_mem _ hy)]

end Verif.Reuse
