import Verif.Reuse.Quick

/-!
# Kept equations and the exchanger of a step
-/

namespace Verif.Reuse

open Spec

/-- **Each exchange site is counted once.** The exchanger of a step has the entries of the exchanger of the cell; an
exchange site in it has the total of the system (at least the least amount) exactly once, whatever the components listed
before; everything else has none. -/
theorem site_once (db : Db) (hs : Sound db) (tot : Name → ℚ) (e : Exchange) (hn : ∀ c ∈ e, (c.map (·.1)).Nodup) :
    (saveExch db tot e).flatten.map (·.1) = e.flatten.map (·.1) ∧
    ∀ n, (((saveExch db tot e).flatten.filter fun x => x.1 = n).map (·.2)).sum =
      if (⟨n, .ex⟩ : Master) ∈ db.masters ∧ n ∈ e.flatten.map (·.1) then max db.least (tot n) else 0 := by
  obtain ⟨h1, h2⟩ := saved_names db tot e hs hn
  refine ⟨h1, fun n => ?_⟩
  have := h2 n
  rw [amount] at this
  rw [this, siteTotal]
  congr 1
  split
  · rename_i h
    exact (max_eq_left h).symm
  · rename_i h
    exact (max_eq_right (le_of_lt (not_le.1 h))).symm

/-- A worker that holds the model of a cell. -/
structure Stands (db : Db) (k : Knobs) (c : Cell) (w : Worker) : Prop where
  force : w.force = false
  last : w.last = saveModel k c
  fits : Fits db k c w.xs

theorem pos_iff (db : Db) (hs : Sound db) (c : Cell) (hr : Ready db c) (m : Master) (hm : m ∈ db.masters)
    (hmr : m.role ≠ .skip) : 0 < c.tot m.name ↔ db.least < c.tot m.name := by
  constructor
  · intro h
    exact (hr.totals m hm hmr).resolve_left fun e => by rw [e] at h; exact lt_irrefl _ h
  · exact lt_trans hs.least

/-- The unknown of a master species with a total exists. -/
theorem Fits.any {db : Db} (hs : Sound db) {k : Knobs} {c : Cell} (hr : Ready db c) {xs : List Unk} (h : Fits db k c xs)
    (m : Master) (hm : m ∈ db.masters) (hmr : m.role ≠ .skip) (hp : 0 < c.tot m.name) : xs.any m.of = true := by
  obtain ⟨ns, h1, h2, h3⟩ := h
  have hl := (pos_iff db hs c hr m hm hmr).1 hp
  rw [← any_wipe _ (of_wipe m), h3, skeleton, List.any_append, List.any_append, List.any_append]
  cases hro : m.role with
  | skip => exact absurd hro hmr
  | aq =>
    have : ((setupSolution db c).map wipe).any m.of = true := by
      rw [List.any_eq_true]
      refine ⟨.mb m.name 0, ?_, decide_eq_true ⟨hro, rfl⟩⟩
      rw [List.mem_map]
      refine ⟨.mb m.name (c.tot m.name), ?_, rfl⟩
      rw [setupSolution, List.mem_map]
      exact ⟨m, List.mem_filter.2 ⟨hm, decide_eq_true ⟨hro, hl⟩⟩, rfl⟩
    rw [this]
    rfl
  | ex =>
    have : (ns.map fun n => Unk.exch n 0).any m.of = true := by
      rw [List.any_eq_true]
      exact ⟨.exch m.name 0, List.mem_map.2 ⟨m.name, (h2 _).2 ((hr.sites m hm hro).1 hl), rfl⟩, decide_eq_true ⟨hro, rfl⟩⟩
    rw [this]
    simp

/-- **When the equations are kept.** A worker that has calculated a cell keeps its equations for the next one exactly when
both have the same elements and exchange sites, the same gases of the same kind, solid solutions of the same names, and
the same minerals with the same alternative formulas. -/
theorem kept_iff (db : Db) (hs : Sound db) (k₁ k₂ : Knobs) (c₁ c₂ : Cell) (h₁ : Ready db c₁) (h₂ : Ready db c₂)
    (w : Worker) (hw : Stands db k₁ c₁ w) : w.same db k₂ c₂ = true ↔ SameSystem db k₁ c₁ k₂ c₂ := by
  have hmast : sameMasters db w.last c₂ w.xs = true ↔
      ∀ m ∈ db.masters, m.role ≠ .skip → (0 < c₁.tot m.name ↔ 0 < c₂.tot m.name) := by
    rw [sameMasters, List.all_eq_true, hw.last]
    apply forall_congr'
    intro m
    apply forall_congr'
    intro hm
    by_cases hro : m.role = .skip
    · simp [hro]
    · have e2 := pos_iff db hs c₂ h₂ m hm hro
      have hany := fun h => hw.fits.any hs h₁ m hm hro h
      by_cases p1 : 0 < c₁.tot m.name
      · by_cases p2 : 0 < c₂.tot m.name
        · simp [hro, saveModel, p1, p2, e2.1 p2, hany p1]
        · have : ¬ db.least < c₂.tot m.name := fun h => p2 (e2.2 h)
          simp [hro, saveModel, p1, p2, this]
      · by_cases p2 : 0 < c₂.tot m.name
        · simp [hro, saveModel, p1, p2, e2.1 p2]
        · have : ¬ db.least < c₂.tot m.name := fun h => p2 (e2.2 h)
          simp [hro, saveModel, p1, p2, this, not_lt.1 this]
  have hgas : sameGas k₂ w.last c₂ = true ↔
      ((c₁.gas.map fun g => g.comps.map (·.1)).getD [] = (c₂.gas.map fun g => g.comps.map (·.1)).getD []) ∧
      (c₂.gas ≠ none → c₁.gas.map (·.type) = c₂.gas.map (·.type) ∧ k₁.numerical = k₂.numerical) := by
    rw [sameGas, hw.last]
    have hg : (saveModel k₁ c₁).gas = (c₁.gas.map fun g => g.comps.map (·.1)).getD [] := by
      rw [saveModel]
      cases c₁.gas <;> rfl
    rw [hg]
    cases hc : c₂.gas with
    | none =>
      show List.isEmpty _ = true ↔ _ = [] ∧ _
      rw [List.isEmpty_iff]
      simp
    | some g =>
      show (decide (_ = _) && decide (_ = _) && decide (_ = _) && decide (_ = _)) = true ↔
        _ = g.comps.map (·.1) ∧ (_ → _ = some g.type ∧ _)
      simp only [Bool.and_eq_true, decide_eq_true_iff]
      constructor
      · rintro ⟨⟨⟨a, b⟩, c⟩, d⟩
        exact ⟨d, fun _ => ⟨c, b⟩⟩
      · rintro ⟨d, e⟩
        obtain ⟨c, b⟩ := e (by simp)
        exact ⟨⟨⟨by rw [d, List.length_map], b⟩, c⟩, d⟩
  have hss : sameSS w.last c₂ = true ↔ (c₁.ss.getD []).map (·.name) = (c₂.ss.getD []).map (·.name) := by
    rw [sameSS, hw.last]
    have hg : (saveModel k₁ c₁).ss = (c₁.ss.getD []).map (·.name) := by
      rw [saveModel]
      cases c₁.ss <;> rfl
    rw [hg]
    cases c₂.ss with
    | none =>
      show List.isEmpty _ = true ↔ _ = []
      rw [List.isEmpty_iff]
    | some l =>
      show decide _ = true ↔ _
      rw [decide_eq_true_iff]
      rfl
  have hpp : samePP w.last c₂ = true ↔
      (c₁.pp.getD []).map (fun p => (p.name, p.addFormula)) = (c₂.pp.getD []).map fun p => (p.name, p.addFormula) := by
    rw [samePP, hw.last]
    have hg : (saveModel k₁ c₁).pp = (c₁.pp.getD []).map fun p => (p.name, p.addFormula) := by
      rw [saveModel]
      cases c₁.pp <;> rfl
    rw [hg]
    cases c₂.pp with
    | none =>
      show List.isEmpty _ = true ↔ _ = []
      rw [List.isEmpty_iff]
    | some l =>
      show decide _ = true ↔ _
      rw [decide_eq_true_iff]
      rfl
  rw [Worker.same, hw.force]
  simp only [Bool.and_eq_true, Bool.not_false, true_and, hmast, hgas, hss, hpp]
  constructor
  · rintro ⟨⟨⟨a, b⟩, c⟩, d⟩
    exact ⟨a, b.1, b.2, c, d⟩
  · rintro ⟨a, b1, b2, c, d⟩
    exact ⟨⟨⟨a, b1, b2⟩, c⟩, d⟩

/-- The unknowns of a cell that looks the same and is alike. -/
theorem Fits.other {db : Db} (hs : Sound db) {k₁ k₂ : Knobs} {c₁ c₂ : Cell} (h₁ : Ready db c₁) (h₂ : Ready db c₂)
    (hsame : SameSystem db k₁ c₁ k₂ c₂) (ha : Alike k₁ c₁ k₂ c₂) {xs : List Unk} (h : Fits db k₁ c₁ xs) :
    Fits db k₂ c₂ xs := by
  obtain ⟨ns, n1, n2, n3⟩ := h
  have hlt : ∀ m ∈ db.masters, m.role ≠ .skip → (db.least < c₁.tot m.name ↔ db.least < c₂.tot m.name) := by
    intro m hm hro
    rw [← pos_iff db hs c₁ h₁ m hm hro, ← pos_iff db hs c₂ h₂ m hm hro]
    exact hsame.elements m hm hro
  refine ⟨ns, n1, fun n => ?_, ?_⟩
  · rw [n2]
    constructor
    · intro h
      have hm := mem_sites db c₁ n h
      exact (h₂.sites _ hm rfl).1 ((hlt _ hm (by simp)).1 ((h₁.sites _ hm rfl).2 h))
    · intro h
      have hm := mem_sites db c₂ n h
      exact (h₁.sites _ hm rfl).1 ((hlt _ hm (by simp)).2 ((h₂.sites _ hm rfl).2 h))
  · rw [n3, skeleton, skeleton]
    have e1 : (setupSolution db c₁).map wipe = (setupSolution db c₂).map wipe := by
      rw [setupSolution, setupSolution, List.map_map, List.map_map]
      have : (db.masters.filter fun m => m.role = .aq ∧ c₁.tot m.name > db.least) =
          db.masters.filter fun m => m.role = .aq ∧ c₂.tot m.name > db.least := by
        apply List.filter_congr
        intro m hm
        by_cases hro : m.role = .aq
        · have := hlt m hm (by rw [hro]; simp)
          simp only [hro, true_and, gt_iff_lt, this]
        · simp [hro]
      rw [this]
      rfl
    have e2 : (setupPP c₁).map wipe = (setupPP c₂).map wipe := by
      have hf : ∀ c : Cell, (setupPP c).map wipe =
          ((c.pp.getD []).map fun p => (p.name, p.addFormula)).map fun x => Unk.pp x.1 0 0 0 false := by
        intro c
        rw [setupPP, List.map_map]
        cases c.pp with
        | none => rfl
        | some l =>
          show List.map wipe (List.map _ l) = _
          rw [List.map_map]
          rfl
      rw [hf, hf, hsame.minerals]
    have e3 : (setupGas db k₁ c₁).map wipe = (setupGas db k₂ c₂).map wipe := by
      have ht := ha.2
      have hg := hsame.gases
      rw [treatment, treatment] at ht
      have hf : ∀ (k : Knobs) (c : Cell) (g : Gas), c.gas = some g → (setupGas db k c).map wipe =
          if k.each g then (g.comps.map (·.1)).map fun n => Unk.gasEach n 0 else [.gas 0] := by
        intro k c g hc
        rw [setupGas, hc]
        show List.map wipe (if _ then _ else _) = _
        split
        · rw [List.map_map, List.map_map]
          rfl
        · rfl
      cases hc1 : c₁.gas with
      | none =>
        rw [hc1] at ht
        cases hc2 : c₂.gas with
        | none => rw [setupGas, setupGas, hc1, hc2]
        | some g2 => rw [hc2] at ht; cases ht
      | some g1 =>
        rw [hc1] at ht hg
        cases hc2 : c₂.gas with
        | none => rw [hc2] at ht; cases ht
        | some g2 =>
          rw [hc2] at ht hg
          have ht : k₁.each g1 = k₂.each g2 := Option.some.inj ht
          have hg : g1.comps.map (·.1) = g2.comps.map (·.1) := hg
          rw [hf k₁ c₁ g1 hc1, hf k₂ c₂ g2 hc2, ht, hg]
    have e4 : (setupSS db c₁).map wipe = (setupSS db c₂).map wipe := by
      have hf : ∀ c : Cell, (setupSS db c).map wipe = (components c).flatten.map fun n => Unk.ss n "" "" 0 := by
        intro c
        rw [setupSS, components]
        cases c.ss with
        | none => rfl
        | some l =>
          show List.map wipe (List.map _ (members l)) = List.map _ (List.flatten (List.map _ l))
          rw [List.map_map, members, List.flatMap_def]
          induction l with
          | nil => rfl
          | cons s l ih =>
            rw [List.map_cons, List.flatten_cons, List.map_append, ih, List.map_cons, List.flatten_cons, List.map_append]
            congr 1
            rw [List.map_map, List.map_map]
            rfl
      rw [hf, hf, ha.1]
    rw [e1, e2, e3, e4]
    rfl

/-- The unknowns of a cell, in two orders of the exchange sites, are the same. -/
theorem perm_sites (db : Db) (k : Knobs) (c : Cell) (ns ms : List Name) (hn : ns.Nodup) (hm : ms.Nodup)
    (h : ∀ n, n ∈ ns ↔ n ∈ ms) :
    (setupSolution db c ++ (setupBase c ++ ((ns.map fun n => Unk.exch n (c.tot n)) ++
      (setupPP c ++ (setupGas db k c ++ setupSS db c))))).Perm
    (setupSolution db c ++ (setupBase c ++ ((ms.map fun n => Unk.exch n (c.tot n)) ++
      (setupPP c ++ (setupGas db k c ++ setupSS db c))))) := by
  apply List.Perm.append_left
  apply List.Perm.append_left
  apply List.Perm.append_right
  apply List.Perm.map
  exact (List.perm_ext_iff_of_nodup hn hm).2 h

/-- **Kept equations give the unknowns of a model built anew.** A worker that must build, or that holds the model of
another cell, sets up a cell without a fault and with the unknowns of a model built anew (exchange sites possibly in
another order), whatever the calculations before wrote into the unknowns.
Partial: a cell that `check_same_model` takes for the same as the one before must be alike in what it does not look at. -/
theorem prep_partial (db : Db) (hs : Sound db) (k : Knobs) (c : Cell) (hr : Ready db c) (w : Worker)
    (hw : w.force = true ∨ ∃ k₁ c₁, Ready db c₁ ∧ Stands db k₁ c₁ w ∧ (SameSystem db k₁ c₁ k c → Alike k₁ c₁ k c)) :
    ∃ w' xs, prep db k c w = .ok w' ∧ Stands db k c w' ∧ build db k c = .ok xs ∧ w'.xs.Perm xs := by
  obtain ⟨ns, b1, b2, b3⟩ := build_spec db hs k c hr
  have hbuild : w.same db k c = false →
      ∃ w' xs, prep db k c w = .ok w' ∧ Stands db k c w' ∧ build db k c = .ok xs ∧ w'.xs.Perm xs := by
    intro h
    refine ⟨⟨false, _, saveModel k c⟩, _, ?_, ⟨rfl, rfl, fits_build db hs k c hr b3⟩, b3, List.Perm.refl _⟩
    rw [prep, h, b3]
    rfl
  rcases hw with hf | ⟨k₁, c₁, hr₁, hst, hcl⟩
  · apply hbuild
    rw [Worker.same, hf]
    rfl
  · cases hsm : w.same db k c with
    | false => exact hbuild hsm
    | true =>
      have hsame := (kept_iff db hs k₁ k c₁ c hr₁ hr w hst).1 hsm
      have hfit := hst.fits.other hs hr₁ hr hsame (hcl hsame)
      obtain ⟨ms, q1, q2, q3⟩ := quick_spec db hs k c hr w.xs hfit
      refine ⟨⟨false, _, saveModel k c⟩, _, ?_, ⟨rfl, rfl, ?_⟩, b3,
        perm_sites db k c ms ns q1 b1 fun n => (q2 n).trans (b2 n).symm⟩
      · rw [prep, hsm, if_pos rfl, q3]
        rfl
      · refine ⟨ms, q1, q2, ?_⟩
        simp only [List.map_append, wipe_exch, skeleton]

/-- **The unknowns of a cell do not depend on the cells before.** A worker that starts anew, calculates any cells one after
the other and then a further cell, sets that cell up without a fault and with the unknowns it would have had alone.
Partial: each cell that is taken for the same as the one before must be alike in what the test does not look at. -/
theorem history_partial (db : Db) (hs : Sound db) (l : List Job) (j : Job) (w : Worker) (hw : w.force = true)
    (hl : ∀ i ∈ l ++ [j], i.Proper db) (hc : (l ++ [j]).IsChain (Clear db)) :
    ∃ w₁ w₂ xs, runs db l w = .ok w₁ ∧ prep db j.k j.c w₁ = .ok w₂ ∧ build db j.k j.c = .ok xs ∧ w₂.xs.Perm xs := by
  have key : ∀ (l : List Job) (w : Worker),
      (w.force = true ∨ ∃ i : Job, i.Proper db ∧ Stands db i.k i.c w ∧ ∀ x ∈ (l ++ [j]).head?, Clear db i x) →
      (∀ i ∈ l ++ [j], i.Proper db) → (l ++ [j]).IsChain (Clear db) →
      ∃ w₁ w₂ xs, runs db l w = .ok w₁ ∧ prep db j.k j.c w₁ = .ok w₂ ∧ build db j.k j.c = .ok xs ∧ w₂.xs.Perm xs := by
    intro l
    induction l with
    | nil =>
      intro w hw hl _
      obtain ⟨w', xs, h1, _, h3, h4⟩ := prep_partial db hs j.k j.c (hl j (by simp)).1 w
        (hw.imp id fun ⟨i, hi, hst, hcl⟩ => ⟨i.k, i.c, hi.1, hst, hcl j (by simp)⟩)
      exact ⟨w, w', xs, rfl, h1, h3, h4⟩
    | cons i l ih =>
      intro w hw hl hc
      have hi := hl i (by simp)
      obtain ⟨w', xs, h1, h2, _, _⟩ := prep_partial db hs i.k i.c hi.1 w
        (hw.imp id fun ⟨x, hx, hst, hcl⟩ => ⟨x.k, x.c, hx.1, hst, hcl i (by simp)⟩)
      rw [List.cons_append] at hc
      have hc : (∀ x ∈ (l ++ [j]).head?, Clear db i x) ∧ (l ++ [j]).IsChain (Clear db) := by
        revert hc
        cases l ++ [j] with
        | nil => exact fun _ => ⟨fun x hx => (by cases hx), List.IsChain.nil⟩
        | cons y r =>
          intro hc
          rw [List.isChain_cons_cons] at hc
          exact ⟨fun x hx => (by cases hx; exact hc.1), hc.2⟩
      obtain ⟨w₁, w₂, ys, r1, r2, r3, r4⟩ := ih { w' with xs := i.f w'.xs }
        (.inr ⟨i, hi, ⟨h2.force, h2.last, h2.fits.calc hi.2⟩, fun x hx => hc.1 x hx⟩)
        (fun x hx => hl x (List.mem_cons_of_mem _ hx)) hc.2
      refine ⟨w₁, w₂, ys, ?_, r2, r3, r4⟩
      rw [runs, h1]
      exact r1
  exact key l w (.inl hw) hl hc

end Verif.Reuse
