import Verif.Assemble.Sums

/-! # Helper lemmas: what minerals and solid solutions give, and the test of the sums -/

namespace Verif.Assemble

open Spec

/-! ## The amount that is needed -/

/-- What `need` returns: at least what was needed before and what each missing element asks for, and one of these. -/
theorem need_ok {db : Db} {least : ℚ} {tot : Name → ℚ} (l : Amounts) (a0 a : ℚ) (h : need db least tot l a0 = .ok a) :
    a0 ≤ a
      ∧ (∀ x ∈ l, ∀ m, db.prim x.1 = some m → m.sp ≠ .hplus → m.sp ≠ .h2o → tot m.name ≤ least →
          (1 / 10000000000 - tot m.name) / x.2 ≤ a ∧ x.2 ≠ 0)
      ∧ (a = a0 ∨ ∃ x ∈ l, ∃ m, db.prim x.1 = some m ∧ m.sp ≠ .hplus ∧ m.sp ≠ .h2o ∧ tot m.name ≤ least
          ∧ a = (1 / 10000000000 - tot m.name) / x.2) := by
  induction l generalizing a0 with
  | nil =>
    simp only [need, Res.ok.injEq] at h
    subst h
    exact ⟨le_refl _, by simp, Or.inl rfl⟩
  | cons x l ih =>
    rw [need] at h
    cases hm : db.prim x.1 with
    | none => rw [hm] at h; cases h
    | some m =>
      rw [hm] at h
      dsimp only at h
      by_cases h1 : m.sp = .hplus ∨ m.sp = .h2o
      · rw [if_pos h1] at h
        obtain ⟨i1, i2, i3⟩ := ih _ h
        refine ⟨i1, ?_, ?_⟩
        · intro y hy m' hm' k1 k2 k3
          rcases List.mem_cons.mp hy with hy | hy
          · subst hy
            rw [hm] at hm'; cases hm'
            rcases h1 with h1 | h1
            · exact absurd h1 k1
            · exact absurd h1 k2
          · exact i2 y hy m' hm' k1 k2 k3
        · rcases i3 with i3 | ⟨y, hy, r⟩
          · exact Or.inl i3
          · exact Or.inr ⟨y, List.mem_cons_of_mem _ hy, r⟩
      · rw [if_neg h1] at h
        push Not at h1
        by_cases h2 : tot m.name > least
        · rw [if_pos h2] at h
          obtain ⟨i1, i2, i3⟩ := ih _ h
          refine ⟨i1, ?_, ?_⟩
          · intro y hy m' hm' k1 k2 k3
            rcases List.mem_cons.mp hy with hy | hy
            · subst hy
              rw [hm] at hm'; cases hm'
              exact absurd h2 (not_lt.mpr k3)
            · exact i2 y hy m' hm' k1 k2 k3
          · rcases i3 with i3 | ⟨y, hy, r⟩
            · exact Or.inl i3
            · exact Or.inr ⟨y, List.mem_cons_of_mem _ hy, r⟩
        · rw [if_neg h2] at h
          by_cases h3 : x.2 = 0
          · rw [if_pos h3] at h; cases h
          · rw [if_neg h3] at h
            have he : (-(tot m.name) + 1 / 10000000000) / x.2 = (1 / 10000000000 - tot m.name) / x.2 := by ring_nf
            rw [he] at h
            obtain ⟨i1, i2, i3⟩ := ih _ h
            refine ⟨le_trans ?_ i1, ?_, ?_⟩
            · split_ifs with k
              · exact le_of_lt k
              · exact le_refl _
            · intro y hy m' hm' k1 k2 k3
              rcases List.mem_cons.mp hy with hy | hy
              · subst hy
                rw [hm] at hm'; cases hm'
                refine ⟨le_trans ?_ i1, h3⟩
                split_ifs with k
                · exact le_refl _
                · exact not_lt.mp k
              · exact i2 y hy m' hm' k1 k2 k3
            · rcases i3 with i3 | ⟨y, hy, r⟩
              · split_ifs at i3 with k
                · exact Or.inr ⟨x, List.mem_cons_self .., m, hm, h1.1, h1.2, not_lt.mp h2, i3⟩
                · exact Or.inl i3
              · exact Or.inr ⟨y, List.mem_cons_of_mem _ hy, r⟩

theorem amount_nonneg {db : Db} {a : Acct} {l : Amounts} (h : ∀ x ∈ l, 0 ≤ x.2) : 0 ≤ amount db a l := by
  induction l with
  | nil => simp [amount]
  | cons x l ih =>
    rw [amount_cons]
    have := ih fun y hy => h y (List.mem_cons_of_mem _ hy)
    have := h x (List.mem_cons_self ..)
    split_ifs <;> linarith

/-- One entry is at most the whole. -/
theorem le_amount {db : Db} {a : Acct} {l : Amounts} (h : ∀ x ∈ l, 0 ≤ x.2) {x : Name × ℚ} (hx : x ∈ l)
    (hb : belongs db a x.1 = true) : x.2 ≤ amount db a l := by
  induction l with
  | nil => cases hx
  | cons y l ih =>
    rw [amount_cons]
    have hl : ∀ z ∈ l, 0 ≤ z.2 := fun z hz => h z (List.mem_cons_of_mem _ hz)
    rcases List.mem_cons.mp hx with hx | hx
    · subst hx
      rw [if_pos hb]
      have := amount_nonneg (db := db) (a := a) hl
      linarith
    · have := ih hl hx
      have := h y (List.mem_cons_self ..)
      split_ifs <;> linarith

/-- An amount that is not zero has an entry. -/
theorem exists_of_amount {db : Db} {a : Acct} {l : Amounts} (h : amount db a l ≠ 0) :
    ∃ x ∈ l, belongs db a x.1 = true ∧ x.2 ≠ 0 := by
  induction l with
  | nil => exact absurd (amount_nil db a) h
  | cons x l ih =>
    rw [amount_cons] at h
    by_cases hx : belongs db a x.1 = true ∧ x.2 ≠ 0
    · exact ⟨x, List.mem_cons_self .., hx⟩
    · have hz : (if belongs db a x.1 = true then x.2 else 0) = 0 := by
        by_cases hb : belongs db a x.1 = true
        · rw [if_pos hb]
          by_contra hne
          exact hx ⟨hb, hne⟩
        · rw [if_neg hb]
      rw [hz, zero_add] at h
      obtain ⟨y, hy, r⟩ := ih h
      exact ⟨y, List.mem_cons_of_mem _ hy, r⟩

/-! ## One solid -/

/-- What one mineral or component with moles gives: `g` of its `n` moles of `l` go to the sums. -/
structure Gives (db : Db) (least : ℚ) (l : Amounts) (n g : ℚ) (st st' : St) : Prop where
  sums : ∀ a, Kept db a → st'.get a = st.get a + amount db a l * g
  rest : st'.cb = st.cb ∧ st'.water = st.water ∧ st'.inten = st.inten
  nonneg : 0 ≤ g
  most : g ≤ n
  cause : 0 < g → ∃ x ∈ l, ∃ m, db.prim x.1 = some m ∧ m.sp ≠ .hplus ∧ m.sp ≠ .h2o ∧ st.tot m.name ≤ least
    ∧ g ≤ (1 / 10000000000 - st.tot m.name) / x.2
  enough : g < n → ∀ x ∈ l, ∀ m, db.prim x.1 = some m → m.sp ≠ .hplus → m.sp ≠ .h2o → st.tot m.name ≤ least →
    (1 / 10000000000 - st.tot m.name) / x.2 ≤ g ∧ x.2 ≠ 0

/-- The moles that are taken. -/
def taken (n a : ℚ) : ℚ := if n < a then n else a

theorem gives_of {db : Db} {least : ℚ} {l : Amounts} {n a : ℚ} {st st' : St} (hn : 0 < n)
    (h1 : need db least st.tot l 0 = .ok a)
    (h2 : (taken n a > 0 ∧ addElts db .ub l (taken n a) st = .ok st') ∨ (¬ taken n a > 0 ∧ st' = st)) :
    Gives db least l n (taken n a) st st' := by
  obtain ⟨i1, i2, i3⟩ := need_ok _ _ _ h1
  have hnn : 0 ≤ taken n a := by
    unfold taken
    split_ifs
    · exact le_of_lt hn
    · exact i1
  have hle : taken n a ≤ a := by
    unfold taken
    split_ifs with k
    · exact le_of_lt k
    · exact le_refl _
  refine ⟨?_, ?_, hnn, ?_, ?_, ?_⟩
  · intro b hb
    rcases h2 with ⟨_, h2⟩ | ⟨h2, rfl⟩
    · exact addElts_get hb _ _ _ _ _ h2
    · have : taken n a = 0 := le_antisymm (not_lt.mp h2) hnn
      rw [this]; ring
  · rcases h2 with ⟨_, h2⟩ | ⟨h2, rfl⟩
    · exact addElts_rest _ _ _ _ _ h2
    · exact ⟨rfl, rfl, rfl⟩
  · unfold taken
    split_ifs with k
    · exact le_refl _
    · exact not_lt.mp k
  · intro hg
    rcases i3 with i3 | ⟨x, hx, m, k1, k2, k3, k4, k5⟩
    · exact absurd (i3 ▸ hle) (not_le.mpr hg)
    · exact ⟨x, hx, m, k1, k2, k3, k4, k5 ▸ hle⟩
  · intro hg x hx m k1 k2 k3 k4
    have : taken n a = a := by
      unfold taken at hg ⊢
      split_ifs with k
      · rw [if_pos k] at hg
        exact absurd hg (lt_irrefl _)
      · rfl
    rw [this]
    exact i2 x hx m k1 k2 k3 k4

/-- A mineral: nothing changes when it may only precipitate, when it has no moles it gives nothing. -/
inductive PPGives (db : Db) (c c' : PPComp) (st st' : St) : Prop where
  | kept (h : c.precipitateOnly = true) (hc : c' = c) (hs : st' = st)
  | none (l : Amounts) (h : c.precipitateOnly = false) (hl : ppElts db c = some l) (hm : c.moles ≤ 0)
      (hc : c' = { c with delta := 0 }) (hs : st' = st)
  | gives (l : Amounts) (g : ℚ) (h : c.precipitateOnly = false) (hl : ppElts db c = some l) (hm : 0 < c.moles)
      (hc : c' = { c with moles := c.moles - g, delta := g }) (hg : Gives db db.least l c.moles g st st')

theorem addPPComp_ok {db : Db} {c : PPComp} {st : St} {r : PPComp × St} (h : addPPComp db c st = .ok r) :
    PPGives db c r.1 st r.2 := by
  unfold addPPComp at h
  by_cases hp : c.precipitateOnly = true
  · rw [if_pos hp] at h
    cases h
    exact .kept hp rfl rfl
  · rw [if_neg hp] at h
    have hp' : c.precipitateOnly = false := by simpa using hp
    cases hl : ppElts db c with
    | none => rw [hl] at h; cases h
    | some l =>
      rw [hl] at h
      dsimp only at h
      by_cases hm : c.moles > 0
      · rw [if_pos hm] at h
        obtain ⟨a, h1, h2⟩ := Res.bind_ok h
        by_cases hg : taken c.moles a > 0
        · rw [if_pos (show (if c.moles < a then c.moles else a) > 0 from hg)] at h2
          obtain ⟨s, h3, h4⟩ := Res.bind_ok h2
          cases h4
          exact .gives l _ hp' hl hm rfl (gives_of hm h1 (Or.inl ⟨hg, h3⟩))
        · rw [if_neg (show ¬ (if c.moles < a then c.moles else a) > 0 from hg)] at h2
          cases h2
          have G := gives_of (st' := st) hm h1 (Or.inr ⟨hg, rfl⟩)
          have hz : taken c.moles a = 0 := le_antisymm (not_lt.mp hg) G.nonneg
          rw [hz] at G
          refine .gives l 0 hp' hl hm ?_ G
          simp
      · rw [if_neg hm] at h
        cases h
        exact .none l hp' hl (not_lt.mp hm) rfl rfl

/-- A component of a solid solution. -/
inductive SSGives (db : Db) (c c' : SSComp) (st st' : St) : Prop where
  | none (hm : c.moles ≤ 0) (hc : c' = { c with delta := 0 }) (hs : st' = st)
  | gives (l : Amounts) (g : ℚ) (hl : db.phase c.name = some l) (hm : 0 < c.moles)
      (hc : c' = { c with moles := c.moles - g, delta := g }) (hg : Gives db db.leastSS l c.moles g st st')

theorem addSSComp_ok {db : Db} {c : SSComp} {st : St} {r : SSComp × St} (h : addSSComp db c st = .ok r) :
    SSGives db c r.1 st r.2 := by
  unfold addSSComp at h
  by_cases hm : c.moles > 0
  · rw [if_pos hm] at h
    cases hl : db.phase c.name with
    | none => rw [hl] at h; cases h
    | some l =>
      rw [hl] at h
      dsimp only at h
      obtain ⟨a, h1, h2⟩ := Res.bind_ok h
      by_cases hg : taken c.moles a > 0
      · rw [if_pos (show (if c.moles < a then c.moles else a) > 0 from hg)] at h2
        obtain ⟨s, h3, h4⟩ := Res.bind_ok h2
        cases h4
        exact .gives l _ hl hm rfl (gives_of hm h1 (Or.inl ⟨hg, h3⟩))
      · rw [if_neg (show ¬ (if c.moles < a then c.moles else a) > 0 from hg)] at h2
        cases h2
        have G := gives_of (st' := st) hm h1 (Or.inr ⟨hg, rfl⟩)
        have hz : taken c.moles a = 0 := le_antisymm (not_lt.mp hg) G.nonneg
        rw [hz] at G
        refine .gives l 0 hl hm ?_ G
        simp
  · rw [if_neg hm] at h
    cases h
    exact .none (not_lt.mp hm) rfl rfl

/-! ## Balance of one solid -/

theorem ppElts_same {db : Db} {c c' : PPComp} (h1 : c'.name = c.name) (h2 : c'.addFormula = c.addFormula) :
    ppElts db c' = ppElts db c := by
  unfold ppElts
  rw [h1, h2]

theorem PPGives.balance {db : Db} {c c' : PPComp} {st st' : St} (h : PPGives db c c' st st') {a : Acct} (ha : Kept db a) :
    st'.get a + inMineral db a c' = st.get a + inMineral db a c := by
  cases h with
  | kept _ hc hs => subst hc hs; rfl
  | none l _ hl hm hc hs =>
    subst hc hs
    rfl
  | gives l g _ hl hm hc hg =>
    subst hc
    unfold inMineral
    have he : ppElts db { c with moles := c.moles - g, delta := g } = some l := (ppElts_same rfl rfl).trans hl
    rw [he, hl, hg.sums a ha]
    dsimp only
    ring

theorem SSGives.balance {db : Db} {c c' : SSComp} {st st' : St} (h : SSGives db c c' st st') {a : Acct} (ha : Kept db a) :
    st'.get a + inSSComp db a c' = st.get a + inSSComp db a c := by
  cases h with
  | none hm hc hs => subst hc hs; rfl
  | gives l g hl hm hc hg =>
    subst hc
    unfold inSSComp
    simp only [hl, hg.sums a ha]
    ring

theorem PPGives.rest {db : Db} {c c' : PPComp} {st st' : St} (h : PPGives db c c' st st') :
    st'.cb = st.cb ∧ st'.water = st.water ∧ st'.inten = st.inten := by
  cases h with
  | kept _ hc hs => subst hs; exact ⟨rfl, rfl, rfl⟩
  | none l _ hl hm hc hs => subst hs; exact ⟨rfl, rfl, rfl⟩
  | gives l g _ hl hm hc hg => exact hg.rest

theorem SSGives.rest {db : Db} {c c' : SSComp} {st st' : St} (h : SSGives db c c' st st') :
    st'.cb = st.cb ∧ st'.water = st.water ∧ st'.inten = st.inten := by
  cases h with
  | none hm hc hs => subst hs; exact ⟨rfl, rfl, rfl⟩
  | gives l g hl hm hc hg => exact hg.rest

/-- A gift never lowers a sum; if an element is negative afterwards, all was given. -/
theorem Gives.low {db : Db} {least : ℚ} {l : Amounts} {n g : ℚ} {st st' : St} (hg : Gives db least l n g st st')
    (h0 : 0 ≤ least) (hl : ∀ x ∈ l, 0 ≤ x.2) {e : Name} (he : Element db e) :
    st.tot e ≤ st'.tot e ∧ st'.tot e ≤ st.tot e + amount db (.elt e) l * n
      ∧ (st'.tot e < 0 → st'.tot e = st.tot e + amount db (.elt e) l * n) := by
  have hs := hg.sums (.elt e) he
  simp only [St.get] at hs
  have ha := amount_nonneg (db := db) (a := .elt e) hl
  have h1 : 0 ≤ amount db (.elt e) l * g := mul_nonneg ha hg.nonneg
  refine ⟨by linarith, ?_, fun hneg => ?_⟩
  · have := mul_le_mul_of_nonneg_left hg.most ha
    linarith
  · by_cases hz : amount db (.elt e) l = 0
    · rw [hs, hz]; ring
    · obtain ⟨x, hx, hb, hx0⟩ := exists_of_amount hz
      have hpos : 0 < x.2 := lt_of_le_of_ne (hl x hx) (Ne.symm hx0)
      obtain ⟨m, k1, k2, k3, k4⟩ := belongs_elt he (show db.first x.1 = e by simpa [belongs] using hb)
      have hall : ¬ g < n := by
        intro hlt
        have h2 := (hg.enough hlt x hx m k1 k3 k4 (by rw [k2]; linarith)).1
        rw [k2, div_le_iff₀ hpos] at h2
        have h3 : x.2 * g ≤ amount db (.elt e) l * g := mul_le_mul_of_nonneg_right (le_amount hl hx hb) hg.nonneg
        have : x.2 * g = g * x.2 := by ring
        rw [hs] at hneg
        linarith
      have : g = n := le_antisymm hg.most (not_lt.mp hall)
      rw [hs, this]

/-- What a list of solids does to an element. -/
structure Low (st st' : St) (e : Name) (r : ℚ) : Prop where
  mono : st.tot e ≤ st'.tot e
  most : st'.tot e ≤ st.tot e + r
  all : st'.tot e < 0 → st'.tot e = st.tot e + r

theorem Low.refl (st : St) (e : Name) : Low st st e 0 := ⟨le_refl _, by simp, fun _ => by simp⟩

theorem Low.trans {s1 s2 s3 : St} {e : Name} {r q : ℚ} (h : Low s1 s2 e r) (k : Low s2 s3 e q) : Low s1 s3 e (r + q) := by
  refine ⟨le_trans h.mono k.mono, ?_, fun hn => ?_⟩
  · have := h.most; have := k.most; linarith
  · have h2 : s2.tot e < 0 := lt_of_le_of_lt k.mono hn
    rw [k.all hn, h.all h2]; ring

/-- May dissolve. -/
def usable (c : PPComp) : Bool := !c.precipitateOnly && decide (c.moles > 0)

theorem PPGives.low {db : Db} {c c' : PPComp} {st st' : St} (h : PPGives db c c' st st') (h0 : 0 ≤ db.least)
    (hl : ∀ l, ppElts db c = some l → ∀ x ∈ l, 0 ≤ x.2) {e : Name} (he : Element db e) :
    Low st st' e (if usable c then inMineral db (.elt e) c else 0) := by
  cases h with
  | kept hp hc hs => subst hs; simpa [usable, hp] using Low.refl _ e
  | none l hp hll hm hc hs =>
    subst hs
    have : usable c = false := by simp [usable, hp, hm]
    rw [this]
    exact Low.refl _ e
  | gives l g hp hll hm hc hg =>
    have : usable c = true := by simp [usable, hp, hm]
    rw [if_pos this]
    obtain ⟨k1, k2, k3⟩ := hg.low h0 (hl l hll) he
    have : inMineral db (.elt e) c = amount db (.elt e) l * c.moles := by simp [inMineral, hll]
    rw [this]
    exact ⟨k1, k2, k3⟩

theorem SSGives.low {db : Db} {c c' : SSComp} {st st' : St} (h : SSGives db c c' st st') (h0 : 0 ≤ db.leastSS)
    (hl : ∀ l, db.phase c.name = some l → ∀ x ∈ l, 0 ≤ x.2) {e : Name} (he : Element db e) :
    Low st st' e (if c.moles > 0 then inSSComp db (.elt e) c else 0) := by
  cases h with
  | none hm hc hs =>
    subst hs
    rw [if_neg (not_lt.mpr hm)]
    exact Low.refl _ e
  | gives l g hll hm hc hg =>
    rw [if_pos hm]
    obtain ⟨k1, k2, k3⟩ := hg.low h0 (hl l hll) he
    have : inSSComp db (.elt e) c = amount db (.elt e) l * c.moles := by simp [inSSComp, hll]
    rw [this]
    exact ⟨k1, k2, k3⟩

/-! ## Lists of solids -/

/-- Every solid with what it gave. -/
inductive Chain {α : Type} (R : α → α → St → St → Prop) : List α → List α → St → St → Prop where
  | nil (st : St) : Chain R [] [] st st
  | cons {c c' : α} {l l' : List α} {s1 s2 s3 : St} (h : R c c' s1 s2) (t : Chain R l l' s2 s3) :
      Chain R (c :: l) (c' :: l') s1 s3

theorem Chain.append {α : Type} {R : α → α → St → St → Prop} {l l' k k' : List α} {s1 s2 s3 : St} (h : Chain R l l' s1 s2)
    (t : Chain R k k' s2 s3) : Chain R (l ++ k) (l' ++ k') s1 s3 := by
  induction h with
  | nil => exact t
  | cons h _ ih => exact .cons h (ih t)

theorem addPPComps_ok {db : Db} (l : List PPComp) (st : St) (r : List PPComp × St) (h : addPPComps db l st = .ok r) :
    Chain (PPGives db) l r.1 st r.2 := by
  induction l generalizing st r with
  | nil =>
    cases h
    exact .nil st
  | cons c l ih =>
    rw [addPPComps] at h
    obtain ⟨r1, h1, h2⟩ := Res.bind_ok h
    obtain ⟨r2, h3, h4⟩ := Res.bind_ok h2
    cases h4
    exact .cons (addPPComp_ok h1) (ih _ _ h3)

theorem addSSComps_ok {db : Db} (l : List SSComp) (st : St) (r : List SSComp × St) (h : addSSComps db l st = .ok r) :
    Chain (SSGives db) l r.1 st r.2 := by
  induction l generalizing st r with
  | nil =>
    cases h
    exact .nil st
  | cons c l ih =>
    rw [addSSComps] at h
    obtain ⟨r1, h1, h2⟩ := Res.bind_ok h
    obtain ⟨r2, h3, h4⟩ := Res.bind_ok h2
    cases h4
    exact .cons (addSSComp_ok h1) (ih _ _ h3)

theorem addSS_ok {db : Db} (l : List (List SSComp)) (st : St) (r : List (List SSComp) × St) (h : addSS db l st = .ok r) :
    Chain (SSGives db) l.flatten r.1.flatten st r.2 := by
  induction l generalizing st r with
  | nil =>
    cases h
    exact .nil st
  | cons c l ih =>
    rw [addSS] at h
    obtain ⟨r1, h1, h2⟩ := Res.bind_ok h
    obtain ⟨r2, h3, h4⟩ := Res.bind_ok h2
    cases h4
    simp only [List.flatten_cons]
    exact (addSSComps_ok _ _ _ h1).append (ih _ _ h3)

theorem Chain.balance {α : Type} {R : α → α → St → St → Prop} {v : α → ℚ} {a : Acct}
    (hR : ∀ c c' s s', R c c' s s' → s'.get a + v c' = s.get a + v c) {l l' : List α} {s s' : St} (h : Chain R l l' s s') :
    s'.get a + (l'.map v).sum = s.get a + (l.map v).sum := by
  induction h with
  | nil => rfl
  | cons h _ ih =>
    have := hR _ _ _ _ h
    simp only [List.map_cons, List.sum_cons]
    linarith

theorem Chain.rest {α : Type} {R : α → α → St → St → Prop}
    (hR : ∀ c c' s s', R c c' s s' → s'.cb = s.cb ∧ s'.water = s.water ∧ s'.inten = s.inten) {l l' : List α} {s s' : St}
    (h : Chain R l l' s s') : s'.cb = s.cb ∧ s'.water = s.water ∧ s'.inten = s.inten := by
  induction h with
  | nil => exact ⟨rfl, rfl, rfl⟩
  | cons h _ ih =>
    obtain ⟨i1, i2, i3⟩ := ih
    obtain ⟨j1, j2, j3⟩ := hR _ _ _ _ h
    exact ⟨i1.trans j1, i2.trans j2, i3.trans j3⟩

theorem Chain.low {α : Type} {R : α → α → St → St → Prop} {v : α → ℚ} {p : α → Bool} {e : Name} {l l' : List α} {s s' : St}
    (hR : ∀ c ∈ l, ∀ c' s s', R c c' s s' → Low s s' e (if p c then v c else 0)) (h : Chain R l l' s s') :
    Low s s' e ((l.filter p).map v).sum := by
  induction h with
  | nil st => exact Low.refl st e
  | @cons c c' l l' s1 s2 s3 h _ ih =>
    have h1 := hR c (List.mem_cons_self ..) _ _ _ h
    have h2 := ih fun d hd => hR d (List.mem_cons_of_mem _ hd)
    have h3 := h1.trans h2
    by_cases hp : p c = true
    · rw [if_pos hp] at h3
      rw [List.filter_cons_of_pos hp, List.map_cons, List.sum_cons]
      exact h3
    · rw [if_neg hp, zero_add] at h3
      rw [List.filter_cons_of_neg hp]
      exact h3

/-! ## The assemblage -/

theorem checkPP_true {db : Db} {tot : Name → ℚ} (l : List Name) (h : checkPP db tot l = true) :
    ∀ n ∈ l, ∃ m, db.prim n = some m ∧ (m.sp ≠ .hplus → m.sp ≠ .h2o → tot m.name > db.least) := by
  induction l with
  | nil => simp
  | cons n l ih =>
    rw [checkPP] at h
    cases hm : db.prim n with
    | none => rw [hm] at h; cases h
    | some m =>
      rw [hm] at h
      dsimp only at h
      by_cases h1 : m.sp = .h2o ∨ m.sp = .hplus
      · rw [if_pos h1] at h
        intro k hk
        rcases List.mem_cons.mp hk with hk | hk
        · subst hk
          exact ⟨m, hm, fun k1 k2 => by rcases h1 with h1 | h1 <;> contradiction⟩
        · exact ih h k hk
      · rw [if_neg h1] at h
        by_cases h2 : tot m.name > db.least
        · rw [if_pos h2] at h
          intro k hk
          rcases List.mem_cons.mp hk with hk | hk
          · subst hk
            exact ⟨m, hm, fun _ _ => h2⟩
          · exact ih h k hk
        · rw [if_neg h2] at h; cases h

/-- What happens to the minerals of a cell. -/
theorem addPP_ok {db : Db} {x : PP} {st : St} {r : PP × St} (h : addPP db x st = .ok r) :
    (checkPP db st.tot x.elts = true ∧ r = (x, st))
      ∨ (checkPP db st.tot x.elts = false ∧ r.1.elts = x.elts ∧ Chain (PPGives db) x.comps r.1.comps st r.2) := by
  unfold addPP at h
  split_ifs at h with hc
  · cases h
    exact Or.inl ⟨hc, rfl⟩
  · obtain ⟨q, h1, h2⟩ := Res.bind_ok h
    cases h2
    exact Or.inr ⟨by simpa using hc, rfl, addPPComps_ok _ _ _ h1⟩

/-- The parts of a run of `addSolids`. -/
theorem addSolids_ok {db : Db} {i : Input} {st : St} {r : Option PP × Option (List (List SSComp)) × St}
    (h : addSolids db i st = .ok r) :
    ∃ s1, ((i.pp = none ∧ r.1 = none ∧ s1 = st)
        ∨ ∃ p p', i.pp = some p ∧ r.1 = some p' ∧ addPP db p st = .ok (p', s1))
      ∧ ((i.ss = none ∧ r.2.1 = none ∧ r.2.2 = s1)
        ∨ ∃ s s', i.ss = some s ∧ r.2.1 = some s' ∧ addSS db s s1 = .ok (s', r.2.2)) := by
  unfold addSolids at h
  obtain ⟨q, h1, h2⟩ := Res.bind_ok h
  obtain ⟨t, h3, h4⟩ := Res.bind_ok h2
  cases h4
  refine ⟨q.2, ?_, ?_⟩
  · cases hp : i.pp with
    | none =>
      rw [hp] at h1
      cases h1
      exact Or.inl ⟨rfl, rfl, rfl⟩
    | some p =>
      rw [hp] at h1
      obtain ⟨u, h5, h6⟩ := Res.bind_ok h1
      cases h6
      exact Or.inr ⟨p, u.1, rfl, rfl, h5⟩
  · cases hs : i.ss with
    | none =>
      rw [hs] at h3
      cases h3
      exact Or.inl ⟨rfl, rfl, rfl⟩
    | some p =>
      rw [hs] at h3
      obtain ⟨u, h5, h6⟩ := Res.bind_ok h3
      cases h6
      exact Or.inr ⟨p, u.1, rfl, rfl, h5⟩

theorem addPP_balance {db : Db} {a : Acct} (ha : Kept db a) {x : PP} {st : St} {r : PP × St} (h : addPP db x st = .ok r) :
    r.2.get a + (r.1.comps.map (inMineral db a)).sum = st.get a + (x.comps.map (inMineral db a)).sum
      ∧ r.2.cb = st.cb ∧ r.2.water = st.water ∧ r.2.inten = st.inten := by
  rcases addPP_ok h with ⟨_, rfl⟩ | ⟨_, _, hc⟩
  · exact ⟨rfl, rfl, rfl, rfl⟩
  · exact ⟨hc.balance fun _ _ _ _ k => k.balance ha, hc.rest fun _ _ _ _ k => k.rest⟩

/-- Minerals and solid solutions keep every account. -/
theorem addSolids_balance {db : Db} {a : Acct} (ha : Kept db a) {i : Input} {st : St}
    {r : Option PP × Option (List (List SSComp)) × St} (h : addSolids db i st = .ok r) :
    r.2.2.get a + held db a r.1 r.2.1 = st.get a + held db a i.pp i.ss
      ∧ r.2.2.cb = st.cb ∧ r.2.2.water = st.water ∧ r.2.2.inten = st.inten := by
  obtain ⟨s1, h1, h2⟩ := addSolids_ok h
  have e1 : s1.get a + ofOpt (fun p => (p.comps.map (inMineral db a)).sum) r.1
        = st.get a + ofOpt (fun p => (p.comps.map (inMineral db a)).sum) i.pp
      ∧ s1.cb = st.cb ∧ s1.water = st.water ∧ s1.inten = st.inten := by
    rcases h1 with ⟨k1, k2, k3⟩ | ⟨p, p', k1, k2, k3⟩
    · rw [k1, k2, k3]; exact ⟨rfl, rfl, rfl, rfl⟩
    · rw [k1, k2]; exact addPP_balance ha k3
  have e2 : r.2.2.get a + ofOpt (fun l => (l.flatten.map (inSSComp db a)).sum) r.2.1
        = s1.get a + ofOpt (fun l => (l.flatten.map (inSSComp db a)).sum) i.ss
      ∧ r.2.2.cb = s1.cb ∧ r.2.2.water = s1.water ∧ r.2.2.inten = s1.inten := by
    rcases h2 with ⟨k1, k2, k3⟩ | ⟨p, p', k1, k2, k3⟩
    · rw [k1, k2, k3]; exact ⟨rfl, rfl, rfl, rfl⟩
    · rw [k1, k2]
      have hc := addSS_ok _ _ _ k3
      exact ⟨hc.balance fun _ _ _ _ k => k.balance ha, hc.rest fun _ _ _ _ k => k.rest⟩
  obtain ⟨a1, a2, a3, a4⟩ := e1
  obtain ⟨b1, b2, b3, b4⟩ := e2
  refine ⟨?_, b2.trans a2, b3.trans a3, b4.trans a4⟩
  unfold held
  linarith

theorem sum_zero {α : Type} (v : α → ℚ) (l : List α) (h : ∀ c ∈ l, v c = 0) : (l.map v).sum = 0 := by
  induction l with
  | nil => rfl
  | cons c l ih =>
    rw [List.map_cons, List.sum_cons, h c (List.mem_cons_self ..), ih fun d hd => h d (List.mem_cons_of_mem _ hd), add_zero]

theorem sum_nonneg' {α : Type} (v : α → ℚ) (l : List α) (h : ∀ c ∈ l, 0 ≤ v c) : 0 ≤ (l.map v).sum := by
  induction l with
  | nil => exact le_refl _
  | cons c l ih =>
    rw [List.map_cons, List.sum_cons]
    have := h c (List.mem_cons_self ..)
    have := ih fun d hd => h d (List.mem_cons_of_mem _ hd)
    linarith

/-- What the minerals of a cell do to an element. -/
theorem addPP_low {db : Db} {x : PP} {st : St} {r : PP × St} (h : addPP db x st = .ok r) (h0 : 0 ≤ db.least)
    (hl : ∀ c ∈ x.comps, ∀ e, ppElts db c = some e → ∀ y ∈ e, 0 ≤ y.2)
    (hn : ∀ c ∈ x.comps, ∀ e, ppElts db c = some e → ∀ y ∈ e, ∃ n ∈ x.elts, db.first n = db.first y.1)
    {e : Name} (he : Element db e) :
    Low st r.2 e ((x.comps.filter usable).map (inMineral db (.elt e))).sum := by
  rcases addPP_ok h with ⟨hc, rfl⟩ | ⟨_, _, hc⟩
  · have hz : ∀ c ∈ x.comps.filter usable, 0 ≤ inMineral db (.elt e) c := by
      intro c hcm
      obtain ⟨hcm, hu⟩ := List.mem_filter.mp hcm
      unfold inMineral
      cases hp : ppElts db c with
      | none => exact le_refl _
      | some l =>
        have hm : c.moles > 0 := by
          simp only [usable, Bool.and_eq_true, decide_eq_true_eq] at hu
          exact hu.2
        exact mul_nonneg (amount_nonneg (hl c hcm l hp)) (le_of_lt hm)
    refine ⟨le_refl _, ?_, fun hneg => ?_⟩
    · have := sum_nonneg' _ _ hz
      linarith
    · rw [sum_zero]
      · simp
      · intro c hcm
        obtain ⟨hcm, _⟩ := List.mem_filter.mp hcm
        unfold inMineral
        cases hp : ppElts db c with
        | none => rfl
        | some l =>
          have : amount db (.elt e) l = 0 := by
            by_contra hne
            obtain ⟨y, hy, hb, _⟩ := exists_of_amount hne
            obtain ⟨n, hn1, hn2⟩ := hn c hcm l hp y hy
            obtain ⟨m, k1, k2⟩ := checkPP_true _ hc n hn1
            have hb' : db.first n = e := by rw [hn2]; simpa [belongs] using hb
            obtain ⟨m', j1, j2, j3, j4⟩ := belongs_elt he hb'
            rw [k1] at j1; cases j1
            have := k2 j3 j4
            rw [j2] at this
            dsimp only at hneg
            linarith
          dsimp only
          rw [this, zero_mul]
  · exact hc.low (v := inMineral db (.elt e)) (p := usable) fun c hcm c' s s' k => k.low h0 (hl c hcm) he

/-- What minerals and solid solutions do to an element. -/
theorem addSolids_low {db : Db} {i : Input} {st : St} {r : Option PP × Option (List (List SSComp)) × St}
    (h : addSolids db i st = .ok r) (h0 : 0 ≤ db.least) (h1 : 0 ≤ db.leastSS) (hp : Proper db i) (hl : Listed db i)
    {e : Name} (he : Element db e) : Low st r.2.2 e (reserve db (.elt e) i.pp i.ss) := by
  obtain ⟨s1, k1, k2⟩ := addSolids_ok h
  have e1 : Low st s1 e
      (ofOpt (fun p => ((p.comps.filter fun c => !c.precipitateOnly && decide (c.moles > 0)).map
        (inMineral db (.elt e))).sum) i.pp) := by
    rcases k1 with ⟨j1, _, j3⟩ | ⟨p, p', j1, _, j3⟩
    · rw [j1, j3]; exact Low.refl _ _
    · rw [j1]
      exact addPP_low j3 h0 (hp.1 p j1) (hl p j1) he
  have e2 : Low s1 r.2.2 e
      (ofOpt (fun l => ((l.flatten.filter fun c => decide (c.moles > 0)).map (inSSComp db (.elt e))).sum) i.ss) := by
    rcases k2 with ⟨j1, _, j3⟩ | ⟨p, p', j1, _, j3⟩
    · rw [j1, j3]; exact Low.refl _ _
    · rw [j1]
      refine (addSS_ok _ _ _ j3).low (v := inSSComp db (.elt e)) (p := fun c => decide (c.moles > 0)) ?_
      intro c hc c' s s' k
      obtain ⟨q, hq, hcq⟩ := List.mem_flatten.mp hc
      have := k.low h1 (hp.2 p j1 q hq c hcq) he
      simpa using this
  exact e1.trans e2

/-! ## The test of the sums -/

theorem solutionCheck_rest (least : ℚ) (l : List Master) (st : St) :
    (solutionCheck least l st).2.h = st.h ∧ (solutionCheck least l st).2.o = st.o ∧ (solutionCheck least l st).2.cb = st.cb
      ∧ (solutionCheck least l st).2.water = st.water ∧ (solutionCheck least l st).2.inten = st.inten := by
  induction l generalizing st with
  | nil => exact ⟨rfl, rfl, rfl, rfl, rfl⟩
  | cons m l ih =>
    rw [solutionCheck]
    split_ifs
    · exact ih _
    · exact ih _
    · exact ⟨rfl, rfl, rfl, rfl, rfl⟩
    · exact ih _

/-- The test fails for a negative element, and otherwise removes traces. -/
theorem solutionCheck_spec {least : ℚ} (h0 : 0 ≤ least) (l : List Master) (st : St) (hn : (l.map Master.name).Nodup) :
    ((solutionCheck least l st).1 = false ↔ ∃ m ∈ l, m.sp = .other ∧ st.tot m.name < -least)
      ∧ ((solutionCheck least l st).1 = true → ∀ n,
          (solutionCheck least l st).2.tot n = st.tot n ∧ ((∃ m ∈ l, m.name = n) → least < st.tot n)
          ∨ (solutionCheck least l st).2.tot n = 0 ∧ ∃ m ∈ l, m.name = n ∧ (|st.tot n| ≤ least ∨ st.tot n < 0 ∧ m.sp ≠ .other)) := by
  induction l generalizing st with
  | nil => simp [solutionCheck]
  | cons m l ih =>
    rw [List.map_cons, List.nodup_cons] at hn
    obtain ⟨hn1, hn2⟩ := hn
    have hne : ∀ k ∈ l, k.name ≠ m.name := fun k hk h => hn1 (h ▸ List.mem_map_of_mem hk)
    have hz : ∀ st' : St, st' = { st with tot := fun k => if k = m.name then 0 else st.tot k } →
        ¬ (m.sp = .other ∧ st.tot m.name < -least) → (|st.tot m.name| ≤ least ∨ st.tot m.name < 0 ∧ m.sp ≠ .other) →
        ((solutionCheck least l st').1 = false ↔ ∃ k ∈ m :: l, k.sp = .other ∧ st.tot k.name < -least)
          ∧ ((solutionCheck least l st').1 = true → ∀ n,
          (solutionCheck least l st').2.tot n = st.tot n ∧ ((∃ k ∈ m :: l, k.name = n) → least < st.tot n)
          ∨ (solutionCheck least l st').2.tot n = 0
            ∧ ∃ k ∈ m :: l, k.name = n ∧ (|st.tot n| ≤ least ∨ st.tot n < 0 ∧ k.sp ≠ .other)) := by
      intro st' hst hno hwhy
      obtain ⟨i1, i2⟩ := ih st' hn2
      have ht : ∀ k ∈ l, st'.tot k.name = st.tot k.name := by
        intro k hk
        rw [hst]
        simp [hne k hk]
      refine ⟨?_, ?_⟩
      · rw [i1]
        constructor
        · rintro ⟨k, hk, h1, h2⟩
          exact ⟨k, List.mem_cons_of_mem _ hk, h1, by rw [← ht k hk]; exact h2⟩
        · rintro ⟨k, hk, h1, h2⟩
          rcases List.mem_cons.mp hk with hk | hk
          · subst hk
            exact absurd ⟨h1, h2⟩ hno
          · exact ⟨k, hk, h1, by rw [ht k hk]; exact h2⟩
      · intro hok n
        rcases i2 hok n with ⟨h1, h2⟩ | ⟨h1, k, hk, h2, h3⟩
        · by_cases hnm : n = m.name
          · right
            subst hnm
            refine ⟨?_, m, List.mem_cons_self .., rfl, hwhy⟩
            rw [h1, hst]
            simp
          · left
            have hs : st'.tot n = st.tot n := by rw [hst]; simp [hnm]
            rw [hs] at h1 h2
            refine ⟨h1, ?_⟩
            rintro ⟨k, hk, hkn⟩
            rcases List.mem_cons.mp hk with hk | hk
            · subst hk
              exact absurd hkn.symm hnm
            · exact h2 ⟨k, hk, hkn⟩
        · right
          subst h2
          rw [ht k hk] at h3
          exact ⟨h1, k, List.mem_cons_of_mem _ hk, rfl, h3⟩
    rw [solutionCheck]
    split_ifs with h1 h2 h3
    · exact hz _ rfl (fun h => by linarith [h.2]) (Or.inl (abs_le.mpr ⟨by linarith, h1.1⟩))
    · obtain ⟨i1, i2⟩ := ih st hn2
      have hbig : least < st.tot m.name := by
        by_contra hle
        exact h1 ⟨not_lt.mp hle, by linarith⟩
      refine ⟨?_, ?_⟩
      · rw [i1]
        constructor
        · rintro ⟨k, hk, r⟩
          exact ⟨k, List.mem_cons_of_mem _ hk, r⟩
        · rintro ⟨k, hk, r⟩
          rcases List.mem_cons.mp hk with hk | hk
          · subst hk
            linarith [r.2]
          · exact ⟨k, hk, r⟩
      · intro hok n
        rcases i2 hok n with ⟨j1, j2⟩ | ⟨j1, k, hk, r⟩
        · left
          refine ⟨j1, ?_⟩
          rintro ⟨k, hk, hkn⟩
          rcases List.mem_cons.mp hk with hk | hk
          · subst hk hkn
            exact hbig
          · exact j2 ⟨k, hk, hkn⟩
        · exact Or.inr ⟨j1, k, List.mem_cons_of_mem _ hk, r⟩
    · refine ⟨⟨fun _ => ⟨m, List.mem_cons_self .., h3, ?_⟩, fun _ => rfl⟩, fun h => by cases h⟩
      by_contra hge
      exact h1 ⟨by linarith, not_lt.mp hge⟩
    · exact hz _ rfl (fun h => h3 h.1) (Or.inr ⟨not_le.mp h2, h3⟩)

end Verif.Assemble
