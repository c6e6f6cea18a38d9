import Verif.Equation.Props

/-! # C169: the equations that are accepted are those that balance -/

namespace Verif.Equation

open Verif.Formula

/-! ## Formulas as names of species -/

theorem closed_append {b : Bool} (s k : List Char) : closed b s → (closed b (s ++ k) ↔ closed false k) := by
  induction s generalizing b with
  | nil => intro h; have : b = false := h; subst this; exact Iff.rfl
  | cons c s ih =>
    intro h
    cases b with
    | true => exact ih h
    | false =>
      obtain ⟨h1, h2, h3, h4⟩ := h
      show (c ≠ '+' ∧ c ≠ '-' ∧ c ≠ '=' ∧ closed (c == '[') (s ++ k)) ↔ _
      rw [ih h4]
      exact ⟨fun h => h.2.2.2, fun h => ⟨h1, h2, h3, h⟩⟩

/-- Characters that do not matter for `closed`. -/
def calm (c : Char) : Prop := c ≠ '+' ∧ c ≠ '-' ∧ c ≠ '=' ∧ c ≠ '['

theorem closed_calm {s : List Char} (h : ∀ c ∈ s, calm c) : closed false s := by
  induction s with
  | nil => rfl
  | cons c s ih =>
    have hc := h c (by simp)
    refine ⟨hc.1, hc.2.1, hc.2.2.1, ?_⟩
    rw [beq_false_of_ne hc.2.2.2]
    exact ih fun d hd => h d (by simp [hd])

theorem calm_tail {c : Char} (h : c.isLower = true ∨ c = '_') : calm c := by
  rcases h with h | rfl
  · refine ⟨?_, ?_, ?_, ?_⟩ <;> (rintro rfl; revert h; decide)
  · exact ⟨by decide, by decide, by decide, by decide⟩

theorem calm_dp {c : Char} (h : c.isDigit = true ∨ c = '.') : calm c := by
  rcases h with h | rfl
  · refine ⟨?_, ?_, ?_, ?_⟩ <;> (rintro rfl; revert h; decide)
  · exact ⟨by decide, by decide, by decide, by decide⟩

theorem closed_name {e : Name} (he : NameGood e) : closed false e := by
  rcases he with ⟨c, t, rfl, hc, ht⟩ | ⟨b, t, rfl, -, hb, ht⟩
  · apply closed_calm
    intro d hd
    rcases List.mem_cons.mp hd with rfl | hd
    · refine ⟨?_, ?_, ?_, ?_⟩ <;> (rintro rfl; revert hc; decide)
    · exact calm_tail (ht d hd)
  · have inside : ∀ b : List Char, ']' ∉ b → closed true (b ++ ']' :: t) := by
      intro b
      induction b with
      | nil => intro _; exact closed_calm fun d hd => calm_tail (ht d hd)
      | cons x b ih =>
        intro h
        simp only [List.mem_cons, not_or] at h
        show closed (x != ']') (b ++ ']' :: t)
        rw [show (x != ']') = true from by simp [Ne.symm h.1]]
        exact ih h.2
    exact ⟨by decide, by decide, by decide, inside b hb⟩

theorem closed_coef {n : Option Num} (hn : CoefGood n) : closed false (coefText n) := by
  cases n with
  | none => rfl
  | some n => exact closed_calm fun c hc => calm_dp (num_chars hn c hc)

theorem closed_cat {a b : List Char} (ha : closed false a) (hb : closed false b) :
    closed false (a ++ b) := (closed_append a b ha).mpr hb

theorem closed_fml (f : Fml) : f.Good → closed false f.text := by
  induction f with
  | nil => intro _; rfl
  | elt e n r ih =>
    intro h
    exact closed_cat (closed_cat (closed_name h.1) (closed_coef h.2.1)) (ih h.2.2)
  | group i n r ihi ihr =>
    intro h
    have h1 : closed false (i.text ++ (')' :: (coefText n ++ r.text))) :=
      closed_cat (ihi h.1) ⟨by decide, by decide, by decide, closed_cat (closed_coef h.2.1) (ihr h.2.2)⟩
    have e : (Fml.group i n r).text = '(' :: (i.text ++ (')' :: (coefText n ++ r.text))) := by
      simp [Fml.text]
    rw [e]
    exact ⟨by decide, by decide, by decide, h1⟩

theorem closed_compound (m : Compound) (hm : m.Good) : closed false m.text := by
  obtain ⟨f, l⟩ := m
  refine closed_cat (closed_fml f hm.1) ?_
  have hl : ∀ q ∈ l, CoefGood q.1 ∧ q.2.Good := hm.2
  clear hm
  show closed false (moreText l)
  induction l with
  | nil => rfl
  | cons q l ih =>
    have e : moreText (q :: l) = ':' :: (coefText q.1 ++ (q.2.text ++ moreText l)) := by
      simp [moreText]
    rw [e]
    have hq := hl q (by simp)
    exact ⟨by decide, by decide, by decide, closed_cat (closed_coef hq.1)
      (closed_cat (closed_fml q.2 hq.2) (ih fun r hr => hl r (by simp [hr])))⟩

/-- Well-formed items: the formula is well formed, does not begin with a colon, and contains only
characters of equations; an electron has the charge −1. -/
def Item.Good (i : Item) : Prop :=
  CoefOk i.coef ∧ i.chg.Good ∧ match i.sp with
    | .electron => i.chg.value = -1
    | .formula m => m.Good ∧ OnesBeforeLast m.more ∧ m.first ≠ .nil ∧ ∀ c ∈ m.text, legal c

theorem fml_head {f : Fml} (hf : f.Good) (hn : f ≠ .nil) (k : List Char) :
    ∃ c r, f.text ++ k = c :: r ∧ (c.isAlpha = true ∨ c = '(' ∨ c = '[') := by
  cases f with
  | nil => exact absurd rfl hn
  | elt e n r =>
    rcases hf.1 with ⟨c, t, rfl, hc, -⟩ | ⟨b, t, rfl, -⟩
    · exact ⟨c, t ++ (coefText n ++ r.text) ++ k, by simp [Fml.text], Or.inl (by simp [Char.isAlpha, hc])⟩
    · exact ⟨'[', b ++ ']' :: t ++ (coefText n ++ r.text) ++ k, by simp [Fml.text],
        Or.inr (Or.inr rfl)⟩
  | group i n r =>
    exact ⟨'(', i.text ++ ')' :: coefText n ++ r.text ++ k, by simp [Fml.text], Or.inr (Or.inl rfl)⟩

theorem item_term {i : Item} (h : i.Good) : i.term.Good := by
  obtain ⟨h1, h2, h3⟩ := h
  refine ⟨h1, ?_, h2⟩
  obtain ⟨neg, coef, sp, chg⟩ := i
  cases sp with
  | electron => exact ⟨⟨'e', [], rfl, Or.inl (by decide)⟩, ⟨by decide, by decide, by decide, rfl⟩,
      fun c hc => by
        have : c = 'e' := by simpa [Item.term, Sp.text] using hc
        subst this
        exact Or.inl (by decide)⟩
  | formula m =>
    obtain ⟨h4, h5, h6, h7⟩ := h3
    exact ⟨fml_head h4.1 h6 (moreText m.more), closed_compound m h4, h7⟩

/-- The elements of an item are read. -/
theorem item_elements {i : Item} (h : i.Good) (c : ℚ) : ∃ st, elements i.term.species c = .ok st ∧
    st.bad = false ∧ ∀ x, x ≠ ['e'] → total st.elts x = c * i.sp.amount x := by
  obtain ⟨h1, h2, h3⟩ := h
  obtain ⟨neg, coef, sp, chg⟩ := i
  cases sp with
  | electron =>
    have h3 : chg.value = -1 := h3
    refine ⟨⟨['-'], [(['e'], c)], 0, false⟩, ?_, rfl, ?_⟩
    · have : (Item.term ⟨neg, coef, .electron, chg⟩).species = ['e', '-'] := by
        simp only [Term.species, Item.term, Sp.text, h3]
        decide
      rw [this]
      exact elements_electron c []
    · intro x hx
      simp [total, hx, Sp.amount]
  | formula m =>
    obtain ⟨h4, h5, h6, h7⟩ := h3
    obtain ⟨st, e1, -, -, e4, e5⟩ := elements_partial m h4 h5 (chgName chg.value) (chgName_charge _) c
    exact ⟨st, e1, e4, fun x _ => e5 x⟩

/-! ## The test on lists of species whose names are formulas -/

/-- The amount of an element that a species contributes. -/
def amt (x : Name) (t : Tok) : ℚ :=
  match elements t.name t.coef with
  | .ok st => total st.elts x
  | _ => 0

/-- The name of the species is a formula. -/
def Sound (t : Tok) : Prop := ∃ st, elements t.name t.coef = .ok st ∧ st.bad = false

theorem sound_list {l : List Tok} (h : ∀ t ∈ l, Sound t) : ∃ es : List St,
    List.Forall₂ (fun t e => elements t.name t.coef = .ok e) l es ∧ es.any St.bad = false ∧
    ∀ x, (es.map fun e => total e.elts x).sum = (l.map (amt x)).sum := by
  induction l with
  | nil => exact ⟨[], .nil, rfl, fun x => rfl⟩
  | cons t l ih =>
    obtain ⟨es, h1, h2, h3⟩ := ih fun u hu => h u (by simp [hu])
    obtain ⟨st, h4, h5⟩ := h t (by simp)
    refine ⟨st :: es, .cons h4 h1, by simp [h5, h2], fun x => ?_⟩
    simp only [List.map_cons, List.sum_cons, h3 x, amt, h4]

theorem check_sound {l : List Tok} (h : ∀ t ∈ l, Sound t) {t : Tok} {m : List Tok} (hl : l = t :: m) :
    (checkEqn l = .ok false ↔ |t.coef - -1| ≤ 1 / 10 ^ 9 ∧ |chargeSum l| ≤ 1 / 10 ^ 9 ∧
      ∀ x, x ≠ ['e'] → |(l.map (amt x)).sum| ≤ 1 / 10 ^ 9) ∧
    (checkEqn l = .ok false ∨ checkEqn l = .err) := by
  obtain ⟨es, h1, h2, h3⟩ := sound_list h
  constructor
  · rw [check_iff]
    constructor
    · rintro ⟨⟨t', m', e, a⟩, b, es', c, d, -⟩
      rw [hl, List.cons.injEq] at e
      rw [← e.1] at a
      refine ⟨a, b, fun x hx => ?_⟩
      have he : es' = es := by
        clear h2 h3 d
        revert c h1
        clear hl b h e
        intro h4 h4'
        induction h4 generalizing es' with
        | nil => cases h4'; rfl
        | cons a _ ih =>
          cases h4' with
          | cons a' h' =>
            rw [a] at a'
            cases a'
            rw [ih _ h']
      rw [← h3 x, ← he]
      exact d x hx
    · rintro ⟨a, b, c⟩
      exact ⟨⟨t, m, hl, a⟩, b, es, h1, fun x hx => by rw [h3 x]; exact c x hx, h2.symm⟩
  · obtain ⟨r, hr⟩ := sumUp_of h1
    have hb : r.2.2 = false := by
      obtain ⟨-, es', h4, -, h6⟩ := sumUp_ok _ r hr
      rw [h6]
      have he : es' = es := by
        clear h2 h3 h6
        revert h4 h1
        clear hl hr h
        intro h4 h4'
        induction h4 generalizing es' with
        | nil => cases h4'; rfl
        | cons a _ ih =>
          cases h4' with
          | cons a' h' =>
            rw [a] at a'
            cases a'
            rw [ih _ h']
      rw [he, h2]
    rw [hl] at hr ⊢
    simp only [checkEqn]
    split_ifs with h4
    · exact Or.inr rfl
    · rw [hr, bind_ok]
      split_ifs with h5
      · rw [hb]; exact Or.inl rfl
      · exact Or.inr rfl

/-! ## Equations -/

/-- An equation balances: the species that is defined has the coefficient one, and the charges and the
amounts of every element are the same on both sides, all within 10⁻⁹. -/
def Balanced (t : Item) (lhs rhs : List Item) : Prop :=
  |t.term.value - 1| ≤ 1 / 10 ^ 9 ∧ |sideCharge lhs - sideCharge rhs| ≤ 1 / 10 ^ 9 ∧
    ∀ x, |sideAmount x lhs - sideAmount x rhs| ≤ 1 / 10 ^ 9

theorem not_electron {e : Name} (he : NameGood e) : ['e'] ≠ e := by
  rintro rfl
  rcases he with ⟨c, t, h, hc, -⟩ | ⟨b, t, h, -⟩
  · simp only [List.cons.injEq] at h
    rw [← h.1] at hc
    exact absurd hc (by decide)
  · simp only [List.cons_append, List.cons.injEq] at h
    exact absurd h.1 (by decide)

theorem fml_electron (f : Fml) : f.Good → f.amount ['e'] = 0 := by
  induction f with
  | nil => intro _; rfl
  | elt e n r ih => intro h; simp only [Fml.amount, if_neg (not_electron h.1), ih h.2.2, add_zero]
  | group i n r ihi ihr => intro h; simp only [Fml.amount, ihi h.1, ihr h.2.2, mul_zero, add_zero]

theorem item_electron {i : Item} (h : i.Good) : i.sp.amount ['e'] = 0 := by
  obtain ⟨neg, coef, sp, chg⟩ := i
  obtain ⟨-, -, h⟩ := h
  cases sp with
  | electron => rfl
  | formula m =>
    have hm := h.1
    simp only [Sp.amount, Compound.amount, fml_electron _ hm.1, zero_add]
    have : ∀ l : List (Option Num × Fml), (∀ q ∈ l, q.2.Good) →
        (l.map fun q => coefValue q.1 * q.2.amount ['e']).sum = 0 := by
      intro l
      induction l with
      | nil => intro _; rfl
      | cons q l ih =>
        intro h
        simp only [List.map_cons, List.sum_cons, fml_electron _ (h q (by simp)), mul_zero, zero_add]
        exact ih fun r hr => h r (by simp [hr])
    exact this _ fun q hq => (hm.2 q hq).2

theorem side_electron {l : List Item} (h : ∀ i ∈ l, i.Good) : sideAmount ['e'] l = 0 := by
  unfold sideAmount
  induction l with
  | nil => rfl
  | cons i l ih =>
    simp only [List.map_cons, List.sum_cons, item_electron (h i (by simp)), mul_zero, zero_add]
    exact ih fun j hj => h j (by simp [hj])

theorem flip_coef (t : Term) (f : Bool) : (t.tok.flip f).coef = (if f then -1 else 1) * t.value := by
  cases f <;> simp [Tok.flip, Term.tok]

theorem side_amt {l : List Item} (h : ∀ i ∈ l, i.Good) (f : Bool) (x : Name) (hx : x ≠ ['e']) :
    ((l.map fun i => i.term.tok.flip f).map (amt x)).sum = (if f then -1 else 1) * sideAmount x l := by
  unfold sideAmount
  induction l with
  | nil => simp
  | cons i l ih =>
    simp only [List.map_cons, List.sum_cons]
    rw [ih fun j hj => h j (by simp [hj]), mul_add]
    congr 1
    obtain ⟨st, e1, -, e3⟩ := item_elements (h i (by simp)) ((i.term.tok.flip f).coef)
    have : amt x (i.term.tok.flip f) = total st.elts x := by
      unfold amt
      have : elements (i.term.tok.flip f).name (i.term.tok.flip f).coef = .ok st := e1
      rw [this]
    rw [this, e3 x hx, flip_coef, mul_assoc]

theorem side_chg (l : List Item) (f : Bool) :
    chargeSum (l.map fun i => i.term.tok.flip f) = (if f then -1 else 1) * sideCharge l := by
  unfold chargeSum sideCharge
  induction l with
  | nil => simp
  | cons i l ih =>
    simp only [List.map_cons, List.sum_cons]
    rw [ih, mul_add, flip_coef, mul_assoc]
    rfl

/-- The item that an equation defines. -/
def definedItem (assoc : Bool) (lhs rhs : List Item) : Option Item :=
  if assoc then rhs.head? else lhs.head?

/-- **C169 (partial).** An equation of species with well-formed formulas, in any number on either side
and written in any of the ways of C170, is accepted if and only if it balances, and refused with an
error otherwise. Missing: the equations outside C170, and formulas outside C117. -/
theorem balanced_iff_partial (assoc : Bool) (old : Option Tok) (bl br : Bool)
    (lhs rhs : List Item) (t : Item) (ht : definedItem assoc lhs rhs = some t)
    (fl : Fits bl (lhs.map Item.term)) (fr : Fits br (rhs.map Item.term))
    (gl : ∀ i ∈ lhs, i.Good) (gr : ∀ i ∈ rhs, i.Good)
    (m : Compound) (hm : t.sp = .formula m) (hp : Plain m.text) (hlen : t.term.species.length < 256)
    (s : List Char) (hs : Spaced (eqText bl br (lhs.map Item.term) (rhs.map Item.term)) s) :
    (Balanced t lhs rhs → accept assoc old s = .ok false) ∧
    (¬ Balanced t lhs rhs → accept assoc old s = .err) := by
  have ht' : defined assoc (lhs.map Item.term) (rhs.map Item.term) = some t.term := by
    cases assoc <;>
      simp only [definedItem, defined, if_true, Bool.false_eq_true, if_false, List.head?_map] at ht ⊢ <;>
      rw [ht] <;> rfl
  have gl' : ∀ u ∈ lhs.map Item.term, u.Good := by
    intro u hu
    obtain ⟨i, hi, rfl⟩ := List.mem_map.mp hu
    exact item_term (gl i hi)
  have gr' : ∀ u ∈ rhs.map Item.term, u.Good := by
    intro u hu
    obtain ⟨i, hi, rfl⟩ := List.mem_map.mp hu
    exact item_term (gr i hi)
  have htg : t.Good := by
    cases assoc with
    | true =>
      simp only [definedItem, if_true] at ht
      exact gr t (List.mem_of_mem_head? ht)
    | false =>
      simp only [definedItem, Bool.false_eq_true, if_false] at ht
      exact gl t (List.mem_of_mem_head? ht)
  obtain ⟨l, h1, h2⟩ := parseEq_text assoc old ht' fl fr gl' gr' hs
  have hmg : m.Good ∧ OnesBeforeLast m.more := by
    obtain ⟨-, -, h⟩ := htg
    rw [hm] at h
    exact ⟨h.1, h.2.1⟩
  obtain ⟨st, e1, -, -, e4, e5⟩ := elements_partial m hmg.1 hmg.2 (chgName t.chg.value)
    (chgName_charge _) (-t.term.value)
  have htgt : target (t.term.tok.flip true) (t.term.tok.flip true :: l) =
      .ok ⟨t.term.tok.flip true :: l, (combine st.elts).map (fun p => (p.1, -p.2)), st.bad⟩ := by
    have hsp : (t.term.tok.flip true).name = m.text ++ ([] ++ chgName t.chg.value) := by
      show t.sp.text ++ chgName t.chg.value = _
      rw [hm]; rfl
    unfold target
    rw [if_neg (by
      show ¬ maxLength < t.term.species.length + 1
      simp only [maxLength]; omega), hsp, show (t.term.tok.flip true).coef = -t.term.value from rfl,
      strip_text hp (Or.inl rfl) (chgName_charge _) (chgName_paren _), e1, bind_ok]
  rw [htgt] at h2
  have hperm : (t.term.tok.flip true :: l).Perm
      ((lhs.map fun i => i.term.tok.flip !assoc) ++ rhs.map fun i => i.term.tok.flip assoc) := by
    unfold allToks at h1
    rw [List.map_map, List.map_map] at h1
    exact h1
  have snd : ∀ u ∈ t.term.tok.flip true :: l, Sound u := by
    intro u hu
    have := hperm.mem_iff.mp hu
    rcases List.mem_append.mp this with h | h
    · obtain ⟨i, hi, rfl⟩ := List.mem_map.mp h
      obtain ⟨st, a, b, -⟩ := item_elements (gl i hi) (i.term.tok.flip !assoc).coef
      exact ⟨st, a, b⟩
    · obtain ⟨i, hi, rfl⟩ := List.mem_map.mp h
      obtain ⟨st, a, b, -⟩ := item_elements (gr i hi) (i.term.tok.flip assoc).coef
      exact ⟨st, a, b⟩
  obtain ⟨c1, c2⟩ := check_sound snd rfl
  have hch : chargeSum (t.term.tok.flip true :: l) =
      (if assoc then 1 else -1) * (sideCharge lhs - sideCharge rhs) := by
    have : chargeSum (t.term.tok.flip true :: l) = chargeSum
      ((lhs.map fun i => i.term.tok.flip !assoc) ++ rhs.map fun i => i.term.tok.flip assoc) :=
      (hperm.map _).sum_eq
    rw [this]
    have hadd : ∀ a b : List Tok, chargeSum (a ++ b) = chargeSum a + chargeSum b := by
      intro a b; simp [chargeSum]
    rw [hadd, side_chg, side_chg]
    cases assoc <;> simp <;> ring
  have ham : ∀ x, x ≠ ['e'] → ((t.term.tok.flip true :: l).map (amt x)).sum =
      (if assoc then 1 else -1) * (sideAmount x lhs - sideAmount x rhs) := by
    intro x hx
    have := (hperm.map (amt x)).sum_eq
    rw [this, List.map_append, List.sum_append, side_amt gl _ x hx, side_amt gr _ x hx]
    cases assoc <;> simp <;> ring
  have hab : ∀ q : ℚ, |(if assoc then (1 : ℚ) else -1) * q| = |q| := by
    intro q; cases assoc <;> simp
  have key : checkEqn (t.term.tok.flip true :: l) = .ok false ↔ Balanced t lhs rhs := by
    rw [c1, hch, hab]
    unfold Balanced
    have hc : |(t.term.tok.flip true).coef - -1| = |t.term.value - 1| := by
      show |(-t.term.value) - -1| = _
      rw [← abs_neg]; congr 1; ring
    rw [hc]
    refine and_congr_right fun _ => and_congr_right fun _ => ?_
    constructor
    · intro h x
      by_cases hx : x = ['e']
      · rw [hx, side_electron gl, side_electron gr]; norm_num
      · have := h x hx
        rwa [ham x hx, hab] at this
    · intro h x hx
      rw [ham x hx, hab]; exact h x
  unfold accept
  rw [h2, bind_ok]
  dsimp only
  rw [e4]
  constructor
  · intro h
    rw [key.mpr h, bind_ok]; rfl
  · intro h
    rcases c2 with h' | h'
    · exact absurd (key.mp h') h
    · rw [h']; rfl

/-- **C169, violated.** The formulas that are misread (`Verif.Formula.two_colons_violated`) make the
test wrong: an equation that balances is refused, one that does not is accepted. -/
theorem two_colons_balance_violation :
    accept false none "K:2Na:3Li = K + 2 Na + 3 Li".toList = .err ∧
    accept false none "K:2Na:3Li = K + 2 Na + 6 Li".toList = .ok false := by
  constructor <;> decide +kernel

/-- A case with electrons: `2 H2O = O2 + 4 H+ + 4 e-`. -/
def waterLeft : List Item :=
  [⟨false, some ⟨['2'], none⟩, .formula ⟨.elt ['H'] (some ⟨['2'], none⟩) (.elt ['O'] none .nil), []⟩, .none⟩]
/-- See `waterLeft`; `n` electrons. -/
def waterRight (n : Char) : List Item :=
  [⟨false, none, .formula ⟨.elt ['O'] (some ⟨['2'], none⟩) .nil, []⟩, .none⟩,
   ⟨false, some ⟨['4'], none⟩, .formula ⟨.elt ['H'] none .nil, []⟩, .row false 1⟩,
   ⟨false, some ⟨[n], none⟩, .electron, .num true 1 none⟩]

example : eqText true true (waterLeft.map Item.term) ((waterRight '4').map Item.term) =
    "2H2O=O2+4H++4e-1".toList := by decide +kernel

example : accept true none "2 H2O = O2 + 4 H+ + 4 e-1".toList = .ok false ∧
    accept true none "2 H2O = O2 + 4 H+ + 3 e-1".toList = .err := by
  constructor <;> decide +kernel

/-- The premises of `balanced_iff_partial` hold for this case, which balances with four electrons and
does not with three. -/
example : (∀ i ∈ waterLeft, i.Good) ∧ (∀ i ∈ waterRight '4', i.Good) ∧
    Fits true (waterLeft.map Item.term) ∧ Fits true ((waterRight '4').map Item.term) ∧
    sideCharge waterLeft = sideCharge (waterRight '4') ∧
    sideCharge waterLeft ≠ sideCharge (waterRight '3') ∧
    sideAmount ['H'] waterLeft = sideAmount ['H'] (waterRight '4') := by
  have lg : ∀ s : List Char, (∀ c ∈ s, isLegit c = true) → ∀ c ∈ s, legal c := by
    intro s h c hc
    have := h c hc
    simp only [isLegit, Bool.or_eq_true, List.contains_iff_mem] at this
    rcases this with (h | h) | h
    · exact Or.inl h
    · exact Or.inr (Or.inl h)
    · exact Or.inr (Or.inr h)
  have hu : ∀ c : Char, c.isUpper = true → NameGood [c] := fun c h => Or.inl ⟨c, [], rfl, h, by simp⟩
  have hd : ∀ c : Char, c.isDigit = true → CoefGood (some ⟨[c], none⟩) := fun c h =>
    ⟨by simpa using h, by simp [Num.frac], by simp, by simp [Num.text]⟩
  have hd' : ∀ c : Char, c.isDigit = true → CoefOk (some ⟨[c], none⟩) := fun c h =>
    ⟨hd c h, by simp⟩
  have h1 : OnesBeforeLast [] := by
    intro a q b e; simp at e
  refine ⟨?_, ?_, ?_, ?_, by decide +kernel, by decide +kernel, by decide +kernel⟩
  · intro i hi
    simp only [waterLeft, List.mem_singleton] at hi
    subst hi
    exact ⟨hd' _ (by decide), trivial, ⟨⟨hu _ (by decide), hd _ (by decide), hu _ (by decide), trivial,
      trivial⟩, by simp⟩, h1, by simp, lg _ (by decide +kernel)⟩
  · intro i hi
    simp only [waterRight, List.mem_cons, List.not_mem_nil, or_false] at hi
    rcases hi with rfl | rfl | rfl
    · exact ⟨trivial, trivial, ⟨⟨hu _ (by decide), hd _ (by decide), trivial⟩, by simp⟩, h1, by simp,
        lg _ (by decide +kernel)⟩
    · exact ⟨hd' _ (by decide), by simp [Chg.Good], ⟨⟨hu _ (by decide), trivial, trivial⟩, by simp⟩,
        h1, by simp, lg _ (by decide +kernel)⟩
    · exact ⟨hd' _ (by decide), by simp [Chg.Good], rfl⟩
  · exact ⟨by decide +kernel, by decide +kernel⟩
  · exact ⟨by decide +kernel, by decide +kernel, by decide +kernel, by decide +kernel,
      by decide +kernel, by decide +kernel⟩

end Verif.Equation
