import Verif.Assemble.Each

/-! # Properties of the sum a reaction calculation starts from -/

namespace Verif.Assemble

open Spec

/-- C179. When a step succeeds, what it calculates from is the sum of all parts of the cell. Hydrogen, oxygen, charge and
water of solution -1 are exact; what minerals and solid solutions gave is missing there. Each other element agrees within the
limit for traces, and solution -1 lists it. -/
theorem start_is_sum {db : Db} (hs : Sound db) {i : Input} (hp : Plain db i) {k : Nat} {st : St} {sol : Solution}
    {pp : Option PP} {ss : Option (List (List SSComp))} {marks : List Name}
    (h : step db i k = .ok (.sum st sol pp ss marks)) :
    sol.h + held db .h pp ss = brought db i .h + held db .h i.pp i.ss
      ∧ sol.o + held db .o pp ss = brought db i .o + held db .o i.pp i.ss
      ∧ sol.cb = charge i ∧ sol.water = water i
      ∧ (∀ e, Ordinary db e →
          |st.tot e + held db (.elt e) pp ss - (brought db i (.elt e) + held db (.elt e) i.pp i.ss)| ≤ db.least)
      ∧ ∀ e, Dissolved db e → listed sol e = st.tot e := by
  obtain ⟨s0, r, q, h1, h2, h3, h4⟩ := step_ok h
  rcases h4 with ⟨_, h4⟩ | ⟨ht, h4⟩
  · cases h4
  injection h4 with e1 e2 e3 e4 e5
  obtain ⟨c1, c2, c3, c4, _⟩ := solutionCheck_rest db.least db.masters r.2.2
  have hspec := (solutionCheck_spec hs.least db.masters r.2.2 hs.names).2 ht
  have bal : ∀ a, Kept db a → r.2.2.get a + held db a pp ss = brought db i a + held db a i.pp i.ss := by
    intro a ha
    rw [e3, e4, checks_held h3, (addSolids_balance ha h2).1, (gather_get ha i hp k s0 h1).1]
  have g := gather_get (a := .h) (db := db) trivial i hp k s0 h1
  have b := (addSolids_balance (a := .h) (db := db) trivial h2).2
  refine ⟨?_, ?_, ?_, ?_, fun e he => ?_, fun e he => ?_⟩
  · rw [e2]
    dsimp only
    rw [c1]
    exact bal .h trivial
  · rw [e2]
    dsimp only
    rw [c2]
    exact bal .o trivial
  · rw [e2]
    dsimp only
    rw [c3, b.1, g.2.1]
  · rw [e2]
    dsimp only
    rw [c4, b.2.1, g.2.2]
  · have hb := bal (.elt e) he.element
    simp only [St.get] at hb
    rw [← hb, e1]
    rcases hspec e with ⟨h5, _⟩ | ⟨h5, m, hm, hme, h6⟩
    · rw [h5, sub_self, abs_zero]
      exact hs.least
    · have : m.sp = .other := by
        obtain ⟨m', k1, k2⟩ := he
        have := exact_of_mem hs.names hm
        rw [hme, k1] at this
        injection this with this
        rw [← this]
        exact k2
      rcases h6 with h6 | ⟨_, h6⟩
      · rw [h5, zero_add, sub_add_cancel_right, abs_neg]
        exact h6
      · exact absurd this h6
  · obtain ⟨m, k1, k2, k3⟩ := he
    have hm := exact_mem k1
    have hme := exact_name k1
    have := saved_listed hs.names st.tot sol (by rw [e2, e1]) hm k3 k2
    rw [hme] at this
    rw [this, e1]
    rcases hspec e with ⟨h5, h6⟩ | ⟨h5, _⟩
    · rw [h5, if_pos (h6 ⟨m, hm, hme⟩)]
    · rw [h5]
      split_ifs <;> rfl

/-- C180. A step fails exactly when some element would be negative although all minerals and solid solutions that may dissolve
were used up. After a failure they are as they were, and after a success no element is negative. -/
theorem fails_iff {db : Db} (hs : Sound db) {i : Input} (hp : Plain db i) (hr : Proper db i) (hl : Listed db i) {k : Nat}
    {d : Done} (h : step db i k = .ok d) :
    ((∃ pp ss, d = .massBalance pp ss)
        ↔ ∃ e, Ordinary db e ∧ brought db i (.elt e) + reserve db (.elt e) i.pp i.ss < -db.least)
      ∧ (∀ pp ss, d = .massBalance pp ss → pp = i.pp ∧ ss = i.ss)
      ∧ ∀ st sol pp ss marks, d = .sum st sol pp ss marks →
          (∀ m ∈ db.masters, 0 ≤ st.tot m.name) ∧ ∀ x ∈ sol.totals, x.2 > db.least := by
  obtain ⟨s0, r, q, h1, h2, h3, h4⟩ := step_ok h
  have hspec := solutionCheck_spec hs.least db.masters r.2.2 hs.names
  have key : (solutionCheck db.least db.masters r.2.2).1 = false
      ↔ ∃ e, Ordinary db e ∧ brought db i (.elt e) + reserve db (.elt e) i.pp i.ss < -db.least := by
    rw [hspec.1]
    constructor
    · rintro ⟨m, hm, ho, hlt⟩
      have he : Ordinary db m.name := ⟨m, exact_of_mem hs.names hm, ho⟩
      refine ⟨m.name, he, ?_⟩
      have hlow := addSolids_low h2 hs.least hs.leastSS hr hl he.element
      have hg := (gather_get (a := .elt m.name) he.element i hp k s0 h1).1
      simp only [St.get] at hg
      rw [← hg, ← hlow.all (lt_of_lt_of_le hlt (neg_nonpos.mpr hs.least))]
      exact hlt
    · rintro ⟨e, he, hlt⟩
      have hlow := addSolids_low h2 hs.least hs.leastSS hr hl he.element
      have hg := (gather_get (a := .elt e) he.element i hp k s0 h1).1
      simp only [St.get] at hg
      rw [← hg] at hlt
      obtain ⟨m, k1, k2⟩ := he
      refine ⟨m, exact_mem k1, k2, ?_⟩
      rw [exact_name k1]
      exact lt_of_le_of_lt hlow.most hlt
  refine ⟨?_, ?_, ?_⟩
  · rw [← key]
    rcases h4 with ⟨hf, h4⟩ | ⟨ht, h4⟩
    · exact ⟨fun _ => hf, fun _ => ⟨_, _, h4⟩⟩
    · constructor
      · rintro ⟨pp, ss, h5⟩
        rw [h4] at h5
        cases h5
      · intro hf
        rw [ht] at hf
        cases hf
  · rintro pp ss rfl
    rcases h4 with ⟨_, h4⟩ | ⟨_, h4⟩
    · cases h4
      exact ⟨rfl, rfl⟩
    · cases h4
  · rintro st sol pp ss marks rfl
    rcases h4 with ⟨_, h4⟩ | ⟨ht, h4⟩
    · cases h4
    · injection h4 with e1 e2
      refine ⟨fun m hm => ?_, fun x hx => ?_⟩
      · rw [e1]
        rcases hspec.2 ht m.name with ⟨h5, h6⟩ | ⟨h5, _⟩
        · rw [h5]
          exact le_trans hs.least (le_of_lt (h6 ⟨m, hm, rfl⟩))
        · rw [h5]
      · rw [e2] at hx
        simp only [saved, List.mem_map, List.mem_filter, Bool.and_eq_true, decide_eq_true_eq] at hx
        obtain ⟨m, ⟨_, hm⟩, rfl⟩ := hx
        exact hm.2

/-- C181. What a step does to a mineral: it only loses moles, and not more than it has; one that may only precipitate, or has
none, loses nothing. It loses some only for one of its elements that would otherwise be missing, and not more than brings that
element to 1e-10 moles. If some of it is left, none of its elements is missing in the sum. -/
theorem minerals_give {db : Db} (hs : Sound db) (hsmall : db.least < 1 / 10000000000) {i : Input} (hp : Plain db i)
    (hr : Proper db i) (hl : Listed db i) {k : Nat} {st : St} {sol : Solution} {pp : PP} {pp' : Option PP}
    {ss : Option (List (List SSComp))} {marks : List Name} (hpp : i.pp = some pp)
    (h : step db i k = .ok (.sum st sol pp' ss marks)) :
    ∃ p', pp' = some p' ∧ List.Forall₂ (fun c c' => Same c c' ∧ c'.moles ≤ c.moles ∧ (0 ≤ c.moles → 0 ≤ c'.moles)
      ∧ (c.precipitateOnly = true ∨ c.moles ≤ 0 → c'.moles = c.moles)
      ∧ (c'.moles < c.moles → ∃ l, ppElts db c = some l ∧ ∃ x ∈ l, ∃ e, Element db e ∧ db.first x.1 = e
          ∧ brought db i (.elt e) ≤ db.least ∧ x.2 * (c.moles - c'.moles) ≤ 1 / 10000000000 - brought db i (.elt e))
      ∧ (c.precipitateOnly = false → 0 < c'.moles → ∀ l, ppElts db c = some l → ∀ x ∈ l, 0 < x.2 → ∀ e, Element db e →
          db.first x.1 = e → db.least < st.tot e)) pp.comps p'.comps := by
  obtain ⟨s0, r, q, h1, h2, h3, h4⟩ := step_ok h
  rcases h4 with ⟨_, h4⟩ | ⟨ht, h4⟩
  · cases h4
  injection h4 with e1 e2 e3 e4 e5
  have hspec := (solutionCheck_spec hs.least db.masters r.2.2 hs.names).2 ht
  have hfin : ∀ e, Element db e → db.least < r.2.2.tot e → db.least < st.tot e := by
    intro e he hlt
    rw [e1]
    rcases hspec e with ⟨h5, _⟩ | ⟨_, m, _, _, h6 | ⟨h6, _⟩⟩
    · rw [h5]; exact hlt
    · exact absurd (lt_of_lt_of_le hlt (le_trans (le_abs_self _) h6)) (lt_irrefl _)
    · exact absurd (lt_of_le_of_lt hs.least (lt_trans hlt h6)) (lt_irrefl _)
  have hbr : ∀ e, Element db e → s0.tot e = brought db i (.elt e) := fun e he =>
    (gather_get (a := .elt e) he i hp k s0 h1).1
  have hpr := hr.1 pp hpp
  obtain ⟨s1, k1, k2⟩ := addSolids_ok h2
  have hss : ∀ e, Element db e → s1.tot e ≤ r.2.2.tot e := by
    rcases k2 with ⟨_, _, j3⟩ | ⟨s, s', j1, _, j3⟩
    · rw [j3]; exact fun _ _ => le_refl _
    · refine ((addSS_ok _ _ _ j3).each ?_).2
      intro c hc c' t t' hg e he
      obtain ⟨l, hl1, hl2⟩ := List.mem_flatten.mp hc
      exact (hg.low hs.leastSS (fun y hy => hr.2 s j1 l hl1 c hl2 y hy) he).mono
  rcases k1 with ⟨j1, _⟩ | ⟨p, p1, j1, j2, j3⟩
  · rw [hpp] at j1; cases j1
  rw [hpp] at j1
  cases j1
  rcases checks_ok h3 with ⟨m1, _⟩ | ⟨p2, p3, m1, m2, m3⟩
  · rw [j2] at m1; cases m1
  rw [j2] at m1
  cases m1
  refine ⟨p3, by rw [e3, m2], ?_⟩
  -- a mineral that is as it was, apart from `delta`
  have hsame : ∀ c c' : PPComp, (c' = c ∨ Checked c c') → Same c c' ∧ c'.moles = c.moles := by
    rintro c c' (rfl | ⟨_, rfl⟩ | ⟨_, rfl⟩) <;> exact ⟨⟨rfl, rfl, rfl⟩, rfl⟩
  rcases addPP_ok j3 with ⟨a1, a2⟩ | ⟨_, _, a3⟩
  · cases a2
    refine (forall2_mem m3).imp ?_
    rintro c c' ⟨hc, hcc⟩
    obtain ⟨f1, f2⟩ := hsame c c' hcc
    rw [f2]
    refine ⟨f1, le_refl _, id, fun _ => rfl, fun hlt => absurd hlt (lt_irrefl _), ?_⟩
    intro _ _ l hl1 x hx _ e he hxe
    obtain ⟨n, hn, hnx⟩ := hl pp hpp c hc l hl1 x hx
    obtain ⟨m, b1, b2⟩ := checkPP_true _ a1 n hn
    obtain ⟨m', b3, b4, b5, b6⟩ := belongs_elt he (hnx.trans hxe)
    rw [b1] at b3
    cases b3
    have := b2 b5 b6
    rw [b4] at this
    exact hfin e he (lt_of_lt_of_le this (hss e he))
  · obtain ⟨b1, _⟩ := a3.each (db := db) fun c hc c' t t' hg e he => (hg.low hs.least (hpr c hc) he).mono
    refine (forall2_comp (forall2_mem b1) m3).imp ?_
    rintro c c'' ⟨c', ⟨hc, t, t', g1, g2, hg⟩, hcc⟩
    obtain ⟨f1, f2⟩ := hsame c' c'' hcc
    have hf : Same c c' → Same c c'' := fun z =>
      ⟨f1.name.trans z.name, f1.formula.trans z.formula, f1.only.trans z.only⟩
    rw [f2]
    cases hg with
    | kept y1 y2 y3 =>
      subst y2
      refine ⟨hf ⟨rfl, rfl, rfl⟩, le_refl _, id, fun _ => rfl, fun hlt => absurd hlt (lt_irrefl _), fun h => ?_⟩
      rw [y1] at h
      cases h
    | none l y1 y2 y3 y4 y5 =>
      subst y4
      exact ⟨hf ⟨rfl, rfl, rfl⟩, le_refl _, id, fun _ => rfl, fun hlt => absurd hlt (lt_irrefl _),
        fun _ h => absurd (lt_of_lt_of_le h y3) (lt_irrefl _)⟩
    | gives l g y1 y2 y3 y4 y5 =>
      subst y4
      dsimp only
      refine ⟨hf ⟨rfl, rfl, rfl⟩, by linarith [y5.nonneg], fun _ => by linarith [y5.most], ?_, fun hlt => ⟨l, y2, ?_⟩, ?_⟩
      · rintro (h | h)
        · rw [y1] at h; cases h
        · exact absurd (lt_of_lt_of_le y3 h) (lt_irrefl _)
      · obtain ⟨x, hx, e, he, hxe, z1, z2⟩ := y5.why (hpr c hc l y2) g1 (by linarith)
        rw [hbr e he] at z1 z2
        exact ⟨x, hx, e, he, hxe, z1, by rw [sub_sub_cancel]; exact z2⟩
      · intro _ hpos l' hl' x hx hx2 e he hxe
        rw [y2] at hl'
        cases hl'
        apply hfin e he
        have z2 := le_trans (g2 e he) (hss e he)
        rcases y5.left (hpr c hc l y2) (by linarith) hx hx2 he hxe with z | z <;> linarith

/-- C181, the account of what a mineral gave: as long as something of it is left, the moles it had are the moles it has and the
moles it gave (`_partial`: for a mineral that is used up this fails, see `used_up_forgotten`). -/
theorem minerals_delta_partial {db : Db} {i : Input} {k : Nat} {st : St} {sol : Solution} {pp : PP} {pp' : Option PP}
    {ss : Option (List (List SSComp))} {marks : List Name} (hpp : i.pp = some pp) (hd : ∀ c ∈ pp.comps, c.delta = 0)
    (h : step db i k = .ok (.sum st sol pp' ss marks)) :
    ∃ p', pp' = some p' ∧ List.Forall₂ (fun c c' => 0 < c'.moles → c'.moles + c'.delta = c.moles) pp.comps p'.comps := by
  obtain ⟨s0, r, q, h1, h2, h3, h4⟩ := step_ok h
  rcases h4 with ⟨_, h4⟩ | ⟨ht, h4⟩
  · cases h4
  injection h4 with e1 e2 e3 e4 e5
  obtain ⟨s1, k1, k2⟩ := addSolids_ok h2
  rcases k1 with ⟨j1, _⟩ | ⟨p, p1, j1, j2, j3⟩
  · rw [hpp] at j1; cases j1
  rw [hpp] at j1
  cases j1
  rcases checks_ok h3 with ⟨m1, _⟩ | ⟨p2, p3, m1, m2, m3⟩
  · rw [j2] at m1; cases m1
  rw [j2] at m1
  cases m1
  refine ⟨p3, by rw [e3, m2], ?_⟩
  have hlast : ∀ c c' : PPComp, (c' = c ∨ Checked c c') → 0 < c'.moles → c' = c := by
    rintro c c' (h | ⟨_, h⟩ | ⟨hm, h⟩) hpos
    · exact h
    · exact h
    · rw [h] at hpos
      exact absurd (lt_of_lt_of_le hpos hm) (lt_irrefl _)
  rcases addPP_ok j3 with ⟨a1, a2⟩ | ⟨_, _, a3⟩
  · cases a2
    refine (forall2_mem m3).imp ?_
    rintro c c' ⟨hc, hcc⟩ hpos
    rw [hlast _ _ hcc hpos, hd c hc, add_zero]
  · have b1 := a3.turns
    refine (forall2_comp (forall2_mem b1) m3).imp ?_
    rintro c c'' ⟨c', ⟨hc, t, t', hg⟩, hcc⟩ hpos
    have heq := hlast _ _ hcc hpos
    rw [heq] at hpos ⊢
    cases hg with
    | kept y1 y2 y3 => rw [y2, hd c hc, add_zero]
    | none l y1 y2 y3 y4 y5 =>
      subst y4
      exact absurd (lt_of_lt_of_le hpos y3) (lt_irrefl _)
    | gives l g y1 y2 y3 y4 y5 =>
      subst y4
      exact sub_add_cancel _ _

/-- C181 for solid solutions: each component only loses moles, and not more than it has, and only for an element that would be
missing; the moles it had are the moles it has and the moles it gave. -/
theorem components_give {db : Db} (hs : Sound db) {i : Input} (hp : Plain db i) (hr : Proper db i) {k : Nat} {st : St}
    {sol : Solution} {pp' : Option PP} {ss : List (List SSComp)} {ss' : Option (List (List SSComp))} {marks : List Name}
    (hss : i.ss = some ss) (h : step db i k = .ok (.sum st sol pp' ss' marks)) :
    ∃ s', ss' = some s' ∧ List.Forall₂ (fun c c' => c'.name = c.name ∧ c'.moles ≤ c.moles ∧ (0 ≤ c.moles → 0 ≤ c'.moles)
      ∧ c'.moles + c'.delta = c.moles
      ∧ (c'.moles < c.moles → ∃ l, db.phase c.name = some l ∧ ∃ x ∈ l, ∃ e, Element db e ∧ db.first x.1 = e
          ∧ brought db i (.elt e) ≤ db.leastSS
          ∧ x.2 * (c.moles - c'.moles) ≤ 1 / 10000000000 - brought db i (.elt e))) ss.flatten s'.flatten := by
  obtain ⟨s0, r, q, h1, h2, h3, h4⟩ := step_ok h
  rcases h4 with ⟨_, h4⟩ | ⟨ht, h4⟩
  · cases h4
  injection h4 with e1 e2 e3 e4 e5
  have hbr : ∀ e, Element db e → s0.tot e = brought db i (.elt e) := fun e he =>
    (gather_get (a := .elt e) he i hp k s0 h1).1
  obtain ⟨s1, k1, k2⟩ := addSolids_ok h2
  have hpm : ∀ e, Element db e → s0.tot e ≤ s1.tot e := by
    rcases k1 with ⟨_, _, j3⟩ | ⟨p, p', j1, _, j3⟩
    · rw [j3]; exact fun _ _ => le_refl _
    · rcases addPP_ok j3 with ⟨_, a2⟩ | ⟨_, _, a3⟩
      · cases a2
        exact fun _ _ => le_refl _
      · exact (a3.each fun c hc c' t t' hg e he => (hg.low hs.least (hr.1 p j1 c hc) he).mono).2
  rcases k2 with ⟨j1, _⟩ | ⟨s, s', j1, j2, j3⟩
  · rw [hss] at j1; cases j1
  rw [hss] at j1
  cases j1
  refine ⟨s', by rw [e4, j2], ?_⟩
  have hpr : ∀ c ∈ ss.flatten, ∀ e, db.phase c.name = some e → ∀ x ∈ e, 0 ≤ x.2 := by
    intro c hc
    obtain ⟨l, hl1, hl2⟩ := List.mem_flatten.mp hc
    exact hr.2 ss hss l hl1 c hl2
  have b1 := ((addSS_ok _ _ _ j3).each (db := db) fun c hc c' t t' hg e he => (hg.low hs.leastSS (hpr c hc) he).mono).1
  refine (forall2_mem b1).imp ?_
  rintro c c' ⟨hc, t, t', g1, g2, hg⟩
  cases hg with
  | none y1 y2 y3 =>
    subst y2
    exact ⟨rfl, le_refl _, id, add_zero _, fun hlt => absurd hlt (lt_irrefl _)⟩
  | gives l g y1 y2 y3 y4 =>
    subst y3
    dsimp only
    refine ⟨rfl, by linarith [y4.nonneg], fun _ => by linarith [y4.most], sub_add_cancel _ _, fun hlt => ⟨l, y1, ?_⟩⟩
    obtain ⟨x, hx, e, he, hxe, z1, z2⟩ := y4.why (hpr c hc l y1) (fun e he => le_trans (hpm e he) (g1 e he)) (by linarith)
    rw [hbr e he] at z1 z2
    exact ⟨x, hx, e, he, hxe, z1, by rw [sub_sub_cancel]; exact z2⟩

/-- C182. Temperature (unless the step has one of its own), pH, pe, ionic strength, activity of water, viscosities and density a
step starts from are averages of the solutions, weighted with the water each brings (`_partial`: no fraction is negative; with
a negative fraction this fails, see `negative_fraction`). -/
theorem averages_partial {db : Db} {i : Input} {k : Nat} {st : St} {sol : Solution} {pp : Option PP}
    {ss : Option (List (List SSComp))} {marks : List Name} (hf : ∀ p ∈ parts i, 0 ≤ p.1) (hw : water i ≠ 0)
    (h : step db i k = .ok (.sum st sol pp ss marks)) {j : Inten} (hj : j ≠ .patm) (ht : j = .tc → i.temperature = none) :
    sol.inten j = average (parts i) j := by
  obtain ⟨s0, r, q, h1, h2, h3, h4⟩ := step_ok h
  rcases h4 with ⟨_, h4⟩ | ⟨_, h4⟩
  · cases h4
  injection h4 with e1 e2 e3 e4 e5
  obtain ⟨s, g1, g2⟩ := gather_inten h1
  have e : sol.inten j = s.inten j := by
    rw [e2]
    dsimp only
    rw [(solutionCheck_rest db.least db.masters r.2.2).2.2.2.2, (addSolids_balance (a := .h) (db := db) trivial h2).2.2.2, g2 j hj]
    cases j with
    | tc => rw [ht rfl]
    | _ => rfl
  rw [e]
  unfold addWater at g1
  cases hiw : i.water with
  | mix l =>
    rw [hiw] at g1
    have hpar : parts i = mixParts i.sols l := by
      unfold parts mixParts
      rw [hiw]
    rw [hpar] at hf ⊢
    rw [addMix_inten g1 hf j]
    exact zero_add _
  | one t =>
    rw [hiw] at g1
    cases g1
    have hpar : parts i = [(1, t)] := by
      unfold parts
      rw [hiw]
    have hw' : t.water ≠ 0 := by
      intro h0
      apply hw
      simp [water, hpar, h0]
    rw [hpar, (addSolution_rest db t 1 1 (zero k)).2.2 j]
    unfold average
    have : (zero k).inten j = 0 := rfl
    rw [this]
    simp [hw']
  | missing =>
    rw [hiw] at g1
    cases g1

end Verif.Assemble
