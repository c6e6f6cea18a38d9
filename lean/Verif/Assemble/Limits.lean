import Verif.Assemble.Each

/-! # Helper lemmas: missing elements and limits -/

namespace Verif.Assemble

open Spec

theorem mem_marksOf {db : Db} {p s : Name} (hp : Element db p) : s ∈ marksOf db p ↔ SpeciesOf db p s := by
  unfold marksOf SpeciesOf
  simp only [List.mem_map, List.mem_filter, decide_eq_true_eq]
  constructor
  · rintro ⟨m, ⟨hm, h⟩, rfl⟩
    refine ⟨m, hm, ?_, hp, rfl⟩
    cases hq : db.prim m.name with
    | none => rw [hq] at h; cases h
    | some k =>
      rw [hq] at h
      rw [← exact_name hq]
      simpa using h
  · rintro ⟨m, hm, h, _, rfl⟩
    refine ⟨m, ⟨hm, ?_⟩, rfl⟩
    obtain ⟨k, h1, h2, _⟩ := belongs_elt hp h
    rw [h1, Option.map_some, h2]

theorem missing_ok {db : Db} {least : ℚ} {tot : Name → ℚ} (l : Amounts) (q : List Name) (h : missing db least tot l = .ok q)
    (e : Name) : e ∈ q ↔ ∃ x ∈ l, Element db e ∧ db.first x.1 = e ∧ tot e ≤ least := by
  induction l generalizing q with
  | nil =>
    cases h
    simp
  | cons x l ih =>
    rw [missing] at h
    cases hm : db.prim x.1 with
    | none => rw [hm] at h; cases h
    | some m =>
      rw [hm] at h
      dsimp only at h
      obtain ⟨r, h1, h2⟩ := Res.bind_ok h
      have hi := ih r h1
      by_cases hs : m.sp = .hplus ∨ m.sp = .h2o
      · rw [if_pos hs] at h2
        cases h2
        rw [hi]
        constructor
        · rintro ⟨y, hy, k⟩
          exact ⟨y, List.mem_cons_of_mem _ hy, k⟩
        · rintro ⟨y, hy, k1, k2, k3⟩
          rcases List.mem_cons.mp hy with rfl | hy
          · obtain ⟨m', j1, j2, j3, j4⟩ := belongs_elt k1 k2
            rw [hm] at j1
            cases j1
            rcases hs with hs | hs
            · exact absurd hs j3
            · exact absurd hs j4
          · exact ⟨y, hy, k1, k2, k3⟩
      · rw [if_neg hs] at h2
        rw [not_or] at hs
        obtain ⟨he, hf⟩ := prim_element hm hs.1 hs.2
        by_cases ht : tot m.name > least
        · rw [if_pos ht] at h2
          cases h2
          rw [hi]
          constructor
          · rintro ⟨y, hy, k⟩
            exact ⟨y, List.mem_cons_of_mem _ hy, k⟩
          · rintro ⟨y, hy, k1, k2, k3⟩
            rcases List.mem_cons.mp hy with rfl | hy
            · rw [hf] at k2
              subst k2
              exact absurd ht (not_lt.mpr k3)
            · exact ⟨y, hy, k1, k2, k3⟩
        · rw [if_neg ht] at h2
          cases h2
          rw [List.mem_cons, hi]
          constructor
          · rintro (rfl | ⟨y, hy, k⟩)
            · exact ⟨x, List.mem_cons_self .., he, hf, not_lt.mp ht⟩
            · exact ⟨y, List.mem_cons_of_mem _ hy, k⟩
          · rintro ⟨y, hy, k1, k2, k3⟩
            rcases List.mem_cons.mp hy with rfl | hy
            · left
              rw [← k2, hf]
            · exact Or.inr ⟨y, hy, k1, k2, k3⟩

theorem missing_marks {db : Db} {least : ℚ} {tot : Name → ℚ} {l : Amounts} {q : List Name} (h : missing db least tot l = .ok q)
    (s : Name) : s ∈ q.flatMap (marksOf db) ↔ Lacks db tot least l s := by
  rw [List.mem_flatMap]
  unfold Lacks
  constructor
  · rintro ⟨e, he, hs⟩
    obtain ⟨x, hx, h1, h2, h3⟩ := (missing_ok _ _ h e).mp he
    exact ⟨x, hx, e, h1, h2, h3, (mem_marksOf h1).mp hs⟩
  · rintro ⟨x, hx, e, h1, h2, h3, h4⟩
    exact ⟨e, (missing_ok _ _ h e).mpr ⟨x, hx, h1, h2, h3⟩, (mem_marksOf h1).mpr h4⟩

theorem ppCheckComps_marks {db : Db} {tot : Name → ℚ} (l : List PPComp) (r : List PPComp × List Name)
    (h : ppCheckComps db tot l = .ok r) (s : Name) :
    s ∈ r.2 ↔ ∃ c ∈ l, c.moles ≤ 0 ∧ ∃ e, ppElts db c = some e ∧ Lacks db tot db.least e s := by
  induction l generalizing r with
  | nil =>
    cases h
    simp
  | cons c l ih =>
    rw [ppCheckComps] at h
    obtain ⟨q, h1, h2⟩ := Res.bind_ok h
    have hi := ih q h1
    by_cases hm : c.moles ≤ 0
    · rw [if_pos hm] at h2
      cases hl : ppElts db c with
      | none => rw [hl] at h2; cases h2
      | some e =>
        rw [hl] at h2
        dsimp only at h2
        obtain ⟨u, h3, h4⟩ := Res.bind_ok h2
        split_ifs at h4
        cases h4
        rw [List.mem_append, hi, missing_marks h3]
        constructor
        · rintro (k | ⟨d, hd, k⟩)
          · exact ⟨c, List.mem_cons_self .., hm, e, hl, k⟩
          · exact ⟨d, List.mem_cons_of_mem _ hd, k⟩
        · rintro ⟨d, hd, k1, e', k2, k3⟩
          rcases List.mem_cons.mp hd with rfl | hd
          · rw [hl] at k2
            cases k2
            exact Or.inl k3
          · exact Or.inr ⟨d, hd, k1, e', k2, k3⟩
    · rw [if_neg hm] at h2
      cases h2
      rw [hi]
      constructor
      · rintro ⟨d, hd, k⟩
        exact ⟨d, List.mem_cons_of_mem _ hd, k⟩
      · rintro ⟨d, hd, k1, k2⟩
        rcases List.mem_cons.mp hd with rfl | hd
        · exact absurd k1 hm
        · exact ⟨d, hd, k1, k2⟩

theorem ppCheck_marks {db : Db} {tot : Name → ℚ} {x : PP} {r : PP × List Name} (h : ppCheck db tot x = .ok r)
    (hl : ∀ c ∈ x.comps, ∀ e, ppElts db c = some e → ∀ y ∈ e, ∃ n ∈ x.elts, db.first n = db.first y.1) (s : Name) :
    s ∈ r.2 ↔ ∃ c ∈ x.comps, c.moles ≤ 0 ∧ ∃ e, ppElts db c = some e ∧ Lacks db tot db.least e s := by
  unfold ppCheck at h
  split_ifs at h with hc
  · cases h
    constructor
    · intro h; cases h
    · rintro ⟨c, hcc, _, l, hl1, y, hy, e, he, k1, k2, _⟩
      obtain ⟨n, hn, hny⟩ := hl c hcc l hl1 y hy
      obtain ⟨m, b1, b2⟩ := checkPP_true _ hc n hn
      obtain ⟨m', b3, b4, b5, b6⟩ := belongs_elt he (hny.trans k1)
      rw [b1] at b3
      cases b3
      have := b2 b5 b6
      rw [b4] at this
      exact absurd this (not_lt.mpr k2)
  · obtain ⟨q, h1, h2⟩ := Res.bind_ok h
    cases h2
    exact ppCheckComps_marks _ _ h1 s

theorem addSolids_elts {db : Db} {p p' : PP} {st s1 : St} (h : addPP db p st = .ok (p', s1)) :
    p'.elts = p.elts ∧ ∀ c' ∈ p'.comps, ∃ c ∈ p.comps, ppElts db c' = ppElts db c := by
  rcases addPP_ok h with ⟨_, a2⟩ | ⟨_, a2, a3⟩
  · cases a2
    exact ⟨rfl, fun c hc => ⟨c, hc, rfl⟩⟩
  · refine ⟨a2, ?_⟩
    have := a3.turns
    generalize p'.comps = l' at this
    generalize p.comps = l at this
    clear a2 a3 h
    induction this with
    | nil => intro c hc; cases hc
    | cons h _ ih =>
      intro d hd
      rcases List.mem_cons.mp hd with rfl | hd
      · refine ⟨_, List.mem_cons_self .., ?_⟩
        obtain ⟨t, t', h⟩ := h
        cases h with
        | kept _ h _ => rw [h]
        | none _ _ _ _ h _ => subst h; exact ppElts_same rfl rfl
        | gives _ _ _ _ _ h _ => subst h; exact ppElts_same rfl rfl
      · obtain ⟨c, hc, k⟩ := ih d hd
        exact ⟨c, List.mem_cons_of_mem _ hc, k⟩

/-! ## Solid solutions -/

theorem ssCheckFrom_sound {db : Db} {tot : Name → ℚ} {comps : List SSComp} (fuel k : Nat) (r : List Name)
    (h : ssCheckFrom db tot comps fuel k = .ok r) (s : Name) (hs : s ∈ r) :
    ∃ c ∈ comps, c.moles ≤ 0 ∧ ∃ e, db.phase c.name = some e ∧ Lacks db tot db.leastSS e s := by
  induction fuel generalizing k r with
  | zero => cases h
  | succ fuel ih =>
    rw [ssCheckFrom] at h
    cases hc : comps[k]? with
    | none =>
      rw [hc] at h
      cases h
      cases hs
    | some c =>
      rw [hc] at h
      dsimp only at h
      by_cases hm : c.moles ≤ 0
      · rw [if_pos hm] at h
        cases hl : db.phase c.name with
        | none => rw [hl] at h; cases h
        | some e =>
          rw [hl] at h
          dsimp only at h
          obtain ⟨q, h1, h2⟩ := Res.bind_ok h
          obtain ⟨t, h3, h4⟩ := Res.bind_ok h2
          cases h4
          rcases List.mem_append.mp hs with hs | hs
          · exact ⟨c, List.mem_of_getElem? hc, hm, e, hl, (missing_marks h1 s).mp hs⟩
          · exact ih _ t h3 hs
      · rw [if_neg hm] at h
        exact ih _ r h hs

/-- Nothing is missing for a component. -/
def Full (db : Db) (tot : Name → ℚ) (c : SSComp) : Prop :=
  0 < c.moles ∨ ∀ e, db.phase c.name = some e → ∀ x ∈ e, ∀ n, Element db n → db.first x.1 = n → db.leastSS < tot n

theorem ssCheckFrom_first {db : Db} {tot : Name → ℚ} (pre post : List SSComp) (c : SSComp) (hpre : ∀ d ∈ pre, Full db tot d)
    (hm : c.moles ≤ 0) {e : Amounts} (he : db.phase c.name = some e) (n : Nat) (k : Nat) (hk : k + n = pre.length) (fuel : Nat)
    (r : List Name) (h : ssCheckFrom db tot (pre ++ c :: post) fuel k = .ok r) (s : Name) (hs : Lacks db tot db.leastSS e s) :
    s ∈ r := by
  induction n generalizing k fuel r with
  | zero =>
    have hk : k = pre.length := by omega
    cases fuel with
    | zero => cases h
    | succ fuel =>
      rw [ssCheckFrom] at h
      have hc : (pre ++ c :: post)[k]? = some c := by rw [hk]; simp
      rw [hc] at h
      dsimp only at h
      rw [if_pos hm, he] at h
      dsimp only at h
      obtain ⟨q, h1, h2⟩ := Res.bind_ok h
      obtain ⟨t, h3, h4⟩ := Res.bind_ok h2
      cases h4
      exact List.mem_append_left _ ((missing_marks h1 s).mpr hs)
  | succ n ih =>
    cases fuel with
    | zero => cases h
    | succ fuel =>
      rw [ssCheckFrom] at h
      have hlt : k < pre.length := by omega
      have hc : (pre ++ c :: post)[k]? = some pre[k] := by
        rw [List.getElem?_append_left hlt, List.getElem?_eq_getElem hlt]
      rw [hc] at h
      dsimp only at h
      have hfull := hpre pre[k] (List.getElem_mem hlt)
      by_cases hm' : pre[k].moles ≤ 0
      · rw [if_pos hm'] at h
        cases hl : db.phase pre[k].name with
        | none => rw [hl] at h; cases h
        | some e' =>
          rw [hl] at h
          dsimp only at h
          obtain ⟨q, h1, h2⟩ := Res.bind_ok h
          obtain ⟨t, h3, h4⟩ := Res.bind_ok h2
          cases h4
          have hq : q = [] := by
            rw [List.eq_nil_iff_forall_not_mem]
            intro y hy
            obtain ⟨x, hx, j1, j2, j3⟩ := (missing_ok _ _ h1 y).mp hy
            rcases hfull with hf | hf
            · exact absurd (lt_of_lt_of_le hf hm') (lt_irrefl _)
            · exact absurd (hf e' hl x hx y j1 j2) (not_lt.mpr j3)
          rw [if_pos hq] at h3
          exact List.mem_append_right _ (ih _ (by omega) _ t h3)
      · rw [if_neg hm'] at h
        exact ih _ (by omega) _ r h

theorem ssCheck_mem {db : Db} {tot : Name → ℚ} (l : List (List SSComp)) (r : List Name) (h : ssCheck db tot l = .ok r) :
    ∀ s, s ∈ r ↔ ∃ c ∈ l, ∃ q, ssCheckFrom db tot c (c.length + 1) 0 = .ok q ∧ s ∈ q := by
  induction l generalizing r with
  | nil =>
    cases h
    simp
  | cons c l ih =>
    rw [ssCheck] at h
    obtain ⟨q, h1, h2⟩ := Res.bind_ok h
    obtain ⟨t, h3, h4⟩ := Res.bind_ok h2
    cases h4
    intro s
    rw [List.mem_append, ih t h3 s]
    constructor
    · rintro (k | ⟨d, hd, k⟩)
      · exact ⟨c, List.mem_cons_self .., q, h1, k⟩
      · exact ⟨d, List.mem_cons_of_mem _ hd, k⟩
    · rintro ⟨d, hd, q', k1, k2⟩
      rcases List.mem_cons.mp hd with rfl | hd
      · rw [h1] at k1
        cases k1
        exact Or.inl k2
      · exact Or.inr ⟨d, hd, q', k1, k2⟩

theorem ssCheck_each {db : Db} {tot : Name → ℚ} (l : List (List SSComp)) (r : List Name) (h : ssCheck db tot l = .ok r) :
    ∀ c ∈ l, ∃ q, ssCheckFrom db tot c (c.length + 1) 0 = .ok q := by
  induction l generalizing r with
  | nil => intro c hc; cases hc
  | cons c l ih =>
    rw [ssCheck] at h
    obtain ⟨q, h1, h2⟩ := Res.bind_ok h
    obtain ⟨t, h3, h4⟩ := Res.bind_ok h2
    intro d hd
    rcases List.mem_cons.mp hd with rfl | hd
    · exact ⟨q, h1⟩
    · exact ih t h3 d hd

theorem forall2_left {α β : Type} {R : α → β → Prop} {l : List α} {l' : List β} (h : List.Forall₂ R l l') :
    ∀ a ∈ l, ∃ b ∈ l', R a b := by
  induction h with
  | nil => intro a ha; cases ha
  | cons h _ ih =>
    intro a ha
    rcases List.mem_cons.mp ha with rfl | ha
    · exact ⟨_, List.mem_cons_self .., h⟩
    · obtain ⟨b, hb, k⟩ := ih a ha
      exact ⟨b, List.mem_cons_of_mem _ hb, k⟩

theorem forall2_right {α β : Type} {R : α → β → Prop} {l : List α} {l' : List β} (h : List.Forall₂ R l l') :
    ∀ b ∈ l', ∃ a ∈ l, R a b := by
  induction h with
  | nil => intro a ha; cases ha
  | cons h _ ih =>
    intro a ha
    rcases List.mem_cons.mp ha with rfl | ha
    · exact ⟨_, List.mem_cons_self .., h⟩
    · obtain ⟨b, hb, k⟩ := ih a ha
      exact ⟨b, List.mem_cons_of_mem _ hb, k⟩

theorem missing_num {db : Db} {least : ℚ} {tot : Name → ℚ} (l : Amounts) : missing db least tot l ≠ .nan := by
  induction l with
  | nil => intro h; cases h
  | cons x l ih =>
    rw [missing]
    cases db.prim x.1 with
    | none => intro h; cases h
    | some m =>
      dsimp only
      cases hm : missing db least tot l with
      | nan => exact absurd hm ih
      | ok r =>
        simp only [Res.bind]
        split_ifs <;> exact fun h => by cases h
      | stop => exact fun h => by cases h
      | ub => exact fun h => by cases h

/-- The test of the components ends within the turns it is given: the index grows in each turn. -/
theorem ssCheckFrom_ends {db : Db} {tot : Name → ℚ} {comps : List SSComp} (fuel k : Nat) (h0 : 0 < fuel)
    (h : comps.length < fuel + k) (hk : comps.length ≤ db.masters.length) : ssCheckFrom db tot comps fuel k ≠ .nan := by
  induction fuel generalizing k with
  | zero => exact absurd h0 (lt_irrefl _)
  | succ fuel ih =>
    rw [ssCheckFrom]
    cases hc : comps[k]? with
    | none => intro h; cases h
    | some c =>
      dsimp only
      have hlt : k < comps.length := by
        by_contra hge
        rw [List.getElem?_eq_none (not_lt.mp hge)] at hc
        cases hc
      split_ifs with hm
      · cases hp : db.phase c.name with
        | none => intro h; cases h
        | some e =>
          dsimp only
          cases hq : missing db db.leastSS tot e with
          | nan => exact absurd hq (missing_num e)
          | stop => exact fun h => by cases h
          | ub => exact fun h => by cases h
          | ok q =>
            simp only [Res.bind]
            have hn := ih ((if q = [] then k else db.masters.length) + 1) (by omega) (by split_ifs <;> omega)
            cases hr : ssCheckFrom db tot comps fuel ((if q = [] then k else db.masters.length) + 1) with
            | nan => exact absurd hr hn
            | stop => exact fun h => by cases h
            | ub => exact fun h => by cases h
            | ok r => exact fun h => by cases h
      · exact ih (k + 1) (by omega) (by omega)

/-! ## Limits -/

theorem has_nil (e : Name) : has [] e = 0 := rfl

theorem has_append (l k : Amounts) (e : Name) : has (l ++ k) e = has l e + has k e := by
  unfold has
  rw [List.filter_append, List.map_append, List.sum_append]

theorem has_cons (x : Name × ℚ) (l : Amounts) (e : Name) : has (x :: l) e = (if x.1 = e then x.2 else 0) + has l e := by
  unfold has
  by_cases h : x.1 = e
  · rw [List.filter_cons_of_pos (by simpa using h), List.map_cons, List.sum_cons, if_pos h]
  · rw [List.filter_cons_of_neg (by simpa using h), if_neg h, zero_add]

theorem has_scale (l : Amounts) (f : ℚ) (e : Name) : has (l.map fun y => (y.1, y.2 * f)) e = has l e * f := by
  induction l with
  | nil => simp [has]
  | cons x l ih =>
    rw [List.map_cons, has_cons, has_cons, ih]
    split_ifs <;> ring

theorem has_moles (l : Amounts) (f : ℚ) (e : Name) :
    has (if f = 0 then [] else l.map fun y => (y.1, y.2 * f)) e = has l e * f := by
  split_ifs with h
  · rw [h, mul_zero, has_nil]
  · exact has_scale l f e

theorem has_pp (db : Db) (l : List PPComp) (e : Name) : has (ppTotals db l) e = (l.map fun c => match c.addFormula with
      | some _ => 0
      | none => has ((db.phase c.name).getD []) e * c.moles).sum := by
  induction l with
  | nil => rfl
  | cons c l ih =>
    rw [ppTotals, has_append, ih, List.map_cons, List.sum_cons]
    congr 1
    cases hf : c.addFormula with
    | some f => rfl
    | none =>
      cases hp : db.phase c.name with
      | none => simp [has]
      | some y => exact has_moles y c.moles e

theorem has_ss (db : Db) (l : List SSComp) (e : Name) :
    has (ssTotals db l) e = (l.map fun c => has ((db.phase c.name).getD []) e * c.moles).sum := by
  induction l with
  | nil => rfl
  | cons c l ih =>
    rw [ssTotals, has_append, ih, List.map_cons, List.sum_cons]
    congr 1
    cases hp : db.phase c.name with
    | none => simp [has]
    | some y => exact has_moles y c.moles e

theorem lookSum_some {sys : Amounts} {n : Name} {t : ℚ} (h : lookSum sys n = some t) : t = has sys n := by
  unfold lookSum at h
  split_ifs at h
  simpa [has] using h.symm

theorem deltaMax_ok {db : Db} {sys : Amounts} (l : Amounts) (hpos : ∀ x ∈ l, 0 < x.2)
    (hin : ∀ x ∈ l, ∀ m, db.prim x.1 = some m → ∃ y ∈ sys, y.1 = m.name) (a d : ℚ) (h : deltaMax db sys l a = .ok d) (y : ℚ) :
    y ≤ d ↔ y ≤ a ∧ Possible db (has sys) l y := by
  induction l generalizing a with
  | nil =>
    cases h
    simp [Possible]
  | cons x l ih =>
    rw [deltaMax] at h
    cases hm : db.prim x.1 with
    | none => rw [hm] at h; cases h
    | some m =>
      rw [hm] at h
      dsimp only at h
      have hfst : db.first x.1 = m.name := (exact_name hm).symm
      obtain ⟨z, hz1, hz2⟩ := hin x (List.mem_cons_self ..) m hm
      cases hls : lookSum sys m.name with
      | none =>
        unfold lookSum at hls
        split_ifs at hls with hany
        exact absurd (List.any_eq_true.mpr ⟨z, hz1, by simpa using hz2⟩) hany
      | some t =>
        rw [hls] at h
        dsimp only at h
        have hx := hpos x (List.mem_cons_self ..)
        rw [if_neg (ne_of_gt hx)] at h
        rw [ih (fun w hw => hpos w (List.mem_cons_of_mem _ hw)) (fun w hw => hin w (List.mem_cons_of_mem _ hw)) _ h]
        have ht := lookSum_some hls
        have hdiv : y ≤ t / x.2 ↔ x.2 * y ≤ has sys m.name := by
          rw [le_div_iff₀ hx, ht, mul_comm]
        have hmin : y ≤ (if t / x.2 < a then t / x.2 else a) ↔ y ≤ a ∧ y ≤ t / x.2 := by
          split_ifs with hc
          · exact ⟨fun k => ⟨le_trans k (le_of_lt hc), k⟩, fun k => k.2⟩
          · exact ⟨fun k => ⟨k, le_trans k (not_lt.mp hc)⟩, fun k => k.1⟩
        rw [hmin, hdiv]
        unfold Possible
        rw [List.forall_mem_cons, hfst]
        tauto

end Verif.Assemble
