import Verif.Equation.Read

/-! # From the text of an equation to the list of species -/

namespace Verif.Equation

open Verif.Formula

theorem legit_of_legal {c : Char} (h : legal c) : isLegit c = true := by
  rcases h with h | h | h
  · simp [isLegit, h]
  · simp [isLegit, h]
  · simp only [List.mem_cons, List.not_mem_nil, or_false] at h
    rcases h with rfl | rfl | rfl | rfl | rfl | rfl | rfl | rfl | rfl | rfl <;> decide

theorem legit_space {c : Char} (h : isLegit c = true) : isSpace c = false := by
  by_contra hn
  simp only [isSpace, Bool.not_eq_false, Bool.or_eq_true, beq_iff_eq] at hn
  have hc : ∀ n : Nat, c.toNat = n → c = Char.ofNat n := by
    rintro n rfl; simp
  rcases hn with ((((rfl | rfl) | rfl) | rfl) | e) | e
  · revert h; decide
  · revert h; decide
  · revert h; decide
  · revert h; decide
  · rw [hc 11 e] at h; revert h; decide
  · rw [hc 12 e] at h; revert h; decide

theorem squeeze_spaced {s t : List Char} (h : Spaced s t) : squeeze t = squeeze s := by
  induction h with
  | nil => rfl
  | space c h _ ih =>
    rw [← ih]
    simp only [List.mem_cons, List.not_mem_nil, or_false] at h
    rcases h with rfl | rfl | rfl | rfl <;> rfl
  | char c _ ih =>
    unfold squeeze at *
    simp only [List.filter_cons, ih]

theorem squeeze_legit {s : List Char} (h : ∀ c ∈ s, isLegit c = true) : squeeze s = s := by
  unfold squeeze
  rw [List.filter_eq_self]
  intro c hc
  rw [legit_space (h c hc)]; rfl

theorem lead_legit {t : Term} (ht : CoefOk t.coef) (bare : Bool) : ∀ c ∈ t.lead bare,
    isLegit c = true := by
  intro d hd
  unfold Term.lead at hd
  rcases List.mem_append.mp hd with h | h
  · unfold Term.sign at h
    split_ifs at h
    all_goals first
      | (rw [List.mem_singleton] at h; subst h; decide)
      | simp at h
  · cases hcoef : t.coef with
    | none => rw [hcoef] at h; simp [coefText] at h
    | some n =>
      rw [hcoef] at h ht
      exact (dp_facts (num_chars ht.1 d h)).2.2.2.2.2

theorem side_legit (l : List Term) : ∀ (bare : Bool), (∀ t ∈ l, t.Good) →
    ∀ c ∈ sideText bare l, isLegit c = true := by
  induction l with
  | nil => intro bare _ c hc; simp [sideText] at hc
  | cons t l ih =>
    intro bare hg c hc
    rw [side_cons] at hc
    have ht := hg t (by simp)
    simp only [List.mem_append] at hc
    rcases hc with h | h | h | h
    · exact lead_legit ht.1 bare c h
    · exact legit_of_legal (ht.2.1.2.2 c h)
    · exact (chg_chars c h).2
    · exact ih false (fun u hu => hg u (by simp [hu])) c h

/-- An equation as written. -/
def eqText (bl br : Bool) (lhs rhs : List Term) : List Char :=
  sideText bl lhs ++ '=' :: sideText br rhs

theorem eq_legit {bl br : Bool} {lhs rhs : List Term} (hl : ∀ t ∈ lhs, t.Good)
    (hr : ∀ t ∈ rhs, t.Good) : ∀ c ∈ eqText bl br lhs rhs, isLegit c = true := by
  intro c hc
  unfold eqText at hc
  simp only [List.mem_append, List.mem_cons] at hc
  rcases hc with h | rfl | h
  · exact side_legit lhs bl hl c h
  · decide
  · exact side_legit rhs br hr c h

/-- Entries of an association: the first species of the right-hand side comes first. -/
theorem readTokens_assoc {bl br : Bool} {lhs rhs : List Term} {t : Term} (fl : Fits bl lhs)
    (fr : Fits br (t :: rhs)) (gl : ∀ t ∈ lhs, t.Good) (gr : ∀ u ∈ t :: rhs, u.Good) :
    readTokens true (eqText bl br lhs (t :: rhs)) =
      .ok (swapIn (lhs.map (fun t => t.tok.flip false)) (t.tok.flip true) ++
        rhs.map (fun t => t.tok.flip true)) := by
  unfold readTokens eqText
  rw [show (!true) = false from rfl, readLeft_side false _ lhs bl _ fl gl (Nat.lt_succ_self _), bind_ok]
  dsimp only
  rw [if_pos rfl]
  have hs := getSpecies_term fr (gr t (by simp)) (fun u hu => gr u (by simp [hu])) (k := [])
    (Or.inl rfl)
  simp only [List.append_nil] at hs
  rw [hs, bind_ok]
  dsimp only
  rw [readRight_side true rhs false _ fr.tail (fun u hu => gr u (by simp [hu])) (Nat.lt_succ_self _),
    bind_ok]

/-- Entries of a dissociation: the left-hand side comes first. -/
theorem readTokens_dissoc {bl br : Bool} {lhs rhs : List Term} (fl : Fits bl lhs)
    (fr : Fits br rhs) (gl : ∀ t ∈ lhs, t.Good) (gr : ∀ u ∈ rhs, u.Good) :
    readTokens false (eqText bl br lhs rhs) =
      .ok (lhs.map (fun t => t.tok.flip true) ++ rhs.map (fun t => t.tok.flip false)) := by
  unfold readTokens eqText
  rw [show (!false) = true from rfl, readLeft_side true _ lhs bl _ fl gl (Nat.lt_succ_self _), bind_ok]
  dsimp only
  rw [if_neg (by simp), readRight_side false rhs br _ fr gr (Nat.lt_succ_self _), bind_ok]

/-- What stands in the list of species: every term once, those on the side of the species that is
defined with the opposite sign. -/
def allToks (assoc : Bool) (lhs rhs : List Term) : List Tok :=
  lhs.map (fun t => t.tok.flip !assoc) ++ rhs.map (fun t => t.tok.flip assoc)

/-- The species that an equation defines: the first one on the right-hand side of an association, the
first one on the left-hand side of a dissociation. -/
def defined (assoc : Bool) (lhs rhs : List Term) : Option Term :=
  if assoc then rhs.head? else lhs.head?

theorem readTokens_text (assoc : Bool) {bl br : Bool} {lhs rhs : List Term} {t : Term}
    (ht : defined assoc lhs rhs = some t) (fl : Fits bl lhs) (fr : Fits br rhs)
    (gl : ∀ t ∈ lhs, t.Good) (gr : ∀ u ∈ rhs, u.Good) :
    ∃ m, readTokens assoc (eqText bl br lhs rhs) = .ok (t.tok.flip true :: m) ∧
      (t.tok.flip true :: m).Perm (allToks assoc lhs rhs) := by
  cases assoc with
  | true =>
    cases rhs with
    | nil => simp [defined] at ht
    | cons u rhs =>
      simp only [defined, if_true, List.head?_cons, Option.some.injEq] at ht
      subst ht
      rw [readTokens_assoc fl fr gl gr]
      cases lhs with
      | nil => exact ⟨_, rfl, List.Perm.refl _⟩
      | cons a l =>
        refine ⟨_, rfl, ?_⟩
        unfold allToks
        simp only [List.map_cons, Bool.not_true, List.cons_append]
        generalize u.tok.flip true = x
        generalize a.tok.flip false = y
        generalize List.map (fun t => t.tok.flip false) l = p
        generalize List.map (fun t => t.tok.flip true) rhs = q
        have h1 : (x :: (p ++ y :: q)).Perm (x :: y :: (p ++ q)) :=
          List.Perm.cons x List.perm_middle
        have h2 : (y :: (p ++ x :: q)).Perm (y :: x :: (p ++ q)) :=
          List.Perm.cons y List.perm_middle
        show (x :: ((p ++ [y]) ++ q)).Perm _
        rw [List.append_assoc]
        exact h1.trans ((List.Perm.swap y x (p ++ q)).trans h2.symm)
  | false =>
    cases lhs with
    | nil => simp [defined] at ht
    | cons u lhs =>
      simp only [defined, Bool.false_eq_true, if_false, List.head?_cons, Option.some.injEq] at ht
      subst ht
      rw [readTokens_dissoc fl fr gl gr]
      exact ⟨_, rfl, List.Perm.refl _⟩

/-! ## Marks of solids and gases -/

theorem removeFirst_skip (x : Char) (k : List Char)
    (hk : ∀ d, k.head? = some d → d ≠ x ∧ d ≠ ')') (a : List Char) :
    ¬ ['(', x, ')'] <:+: a →
    removeFirst ['(', x, ')'] (a ++ k) = a ++ removeFirst ['(', x, ')'] k := by
  induction a with
  | nil => intro _; rfl
  | cons c a ih =>
    intro h
    have h' : ¬ ['(', x, ')'] <:+: a := fun hi => h (hi.trans (List.suffix_cons c a).isInfix)
    simp only [List.cons_append, removeFirst]
    rw [if_neg, ih h']
    intro hp
    rw [List.isPrefixOf_iff_prefix, List.cons_prefix_cons] at hp
    obtain ⟨rfl, hp⟩ := hp
    match a, hp with
    | [], hp =>
      cases k with
      | nil => simp at hp
      | cons d k =>
        rw [List.nil_append, List.cons_prefix_cons] at hp
        exact (hk d rfl).1 hp.1.symm
    | [e], hp =>
      rw [List.cons_append, List.cons_prefix_cons, List.nil_append] at hp
      cases k with
      | nil => simp at hp
      | cons d k =>
        rw [List.cons_prefix_cons] at hp
        exact (hk d rfl).2 hp.2.1.symm
    | e :: f :: a, hp =>
      rw [List.cons_append, List.cons_prefix_cons, List.cons_append, List.cons_prefix_cons] at hp
      obtain ⟨rfl, rfl, -⟩ := hp
      exact h ⟨[], a, by simp⟩

theorem removeFirst_none (x : Char) (k : List Char) (hk : '(' ∉ k) :
    removeFirst ['(', x, ')'] k = k := by
  induction k with
  | nil => rfl
  | cons c k ih =>
    simp only [List.mem_cons, not_or] at hk
    simp only [removeFirst]
    rw [if_neg, ih hk.2]
    intro hp
    rw [List.isPrefixOf_iff_prefix, List.cons_prefix_cons] at hp
    exact hk.1 hp.1

theorem removeFirst_mark (x y : Char) (hy : y ≠ '(') (k : List Char) (hk : '(' ∉ k) :
    removeFirst ['(', x, ')'] (['(', y, ')'] ++ k) = if x = y then k else ['(', y, ')'] ++ k := by
  by_cases h : x = y
  · subst h
    rw [if_pos rfl]
    simp [removeFirst]
  · rw [if_neg h]
    have h2 : removeFirst ['(', x, ')'] (y :: ')' :: k) = y :: ')' :: k :=
      removeFirst_none x _ (by simp [hy.symm, hk])
    show (if _ then _ else '(' :: removeFirst _ (y :: ')' :: k)) = _
    rw [if_neg (by simp [h]), h2]
    rfl

/-- Letters that mark solids and gases. -/
def markLetters : List Char := ['s', 'S', 'g', 'G']

/-- A formula that contains none of the marks `(s)`, `(S)`, `(g)`, `(G)`. -/
def Plain (s : List Char) : Prop := ∀ x ∈ markLetters, ¬ ['(', x, ')'] <:+: s

/-- No mark, or one of them. -/
def Mark (k : List Char) : Prop := k = [] ∨ ∃ x ∈ markLetters, k = ['(', x, ')']

/-- Marks are taken out. -/
theorem strip_text {a k ch : List Char} (ha : Plain a) (hk : Mark k) (hc : Charge ch)
    (hp : '(' ∉ ch) : strip (a ++ (k ++ ch)) = a ++ ch := by
  have hch : ∀ x ∈ markLetters, ∀ d, ch.head? = some d → d ≠ x ∧ d ≠ ')' := by
    intro x hx d hd
    rcases hc with rfl | ⟨r, rfl | rfl⟩
    · simp at hd
    all_goals
      simp only [List.head?_cons, Option.some.injEq] at hd
      subst hd
      revert x
      decide
  have plain : ∀ x ∈ markLetters, removeFirst ['(', x, ')'] (a ++ ch) = a ++ ch := by
    intro x hx
    rw [removeFirst_skip x ch (hch x hx) a (ha x hx), removeFirst_none x ch hp]
  rcases hk with rfl | ⟨y, hy, rfl⟩
  · unfold strip
    rw [List.nil_append]
    rw [show "(s)".toList = ['(', 's', ')'] from rfl, show "(S)".toList = ['(', 'S', ')'] from rfl,
      show "(g)".toList = ['(', 'g', ')'] from rfl, show "(G)".toList = ['(', 'G', ')'] from rfl,
      plain 's' (by decide), plain 'S' (by decide), plain 'g' (by decide), plain 'G' (by decide)]
  · have hy' : y ≠ '(' := by revert y; decide
    have mark : ∀ x ∈ markLetters, removeFirst ['(', x, ')'] (a ++ (['(', y, ')'] ++ ch)) =
        if x = y then a ++ ch else a ++ (['(', y, ')'] ++ ch) := by
      intro x hx
      rw [removeFirst_skip x _ (by
        intro d hd
        simp only [List.cons_append, List.head?_cons, Option.some.injEq] at hd
        subst hd
        revert x
        decide) a (ha x hx), removeFirst_mark x y hy' ch hp]
      split_ifs <;> rfl
    unfold strip
    rw [show "(s)".toList = ['(', 's', ')'] from rfl, show "(S)".toList = ['(', 'S', ')'] from rfl,
      show "(g)".toList = ['(', 'g', ')'] from rfl, show "(G)".toList = ['(', 'G', ')'] from rfl]
    simp only [markLetters, List.mem_cons, List.not_mem_nil, or_false] at hy
    rcases hy with rfl | rfl | rfl | rfl
    · rw [mark 's' (by decide), if_pos rfl, plain 'S' (by decide), plain 'g' (by decide),
        plain 'G' (by decide)]
    · rw [mark 's' (by decide), if_neg (by decide), mark 'S' (by decide), if_pos rfl,
        plain 'g' (by decide), plain 'G' (by decide)]
    · rw [mark 's' (by decide), if_neg (by decide), mark 'S' (by decide), if_neg (by decide),
        mark 'g' (by decide), if_pos rfl, plain 'G' (by decide)]
    · rw [mark 's' (by decide), if_neg (by decide), mark 'S' (by decide), if_neg (by decide),
        mark 'g' (by decide), if_neg (by decide), mark 'G' (by decide), if_pos rfl]

/-! ## The one form of a charge -/

theorem chgName_charge (z : Int) : Charge (chgName z) := by
  unfold chgName
  split_ifs with h
  · exact Or.inl rfl
  · cases decide (z < 0)
    · exact Or.inr ⟨_, Or.inl rfl⟩
    · exact Or.inr ⟨_, Or.inr rfl⟩
  · cases decide (z < 0)
    · exact Or.inr ⟨_, Or.inl rfl⟩
    · exact Or.inr ⟨_, Or.inr rfl⟩

theorem chgName_paren (z : Int) : '(' ∉ chgName z := by
  unfold chgName
  split_ifs with h h'
  · simp
  · cases decide (z < 0) <;> decide
  · intro hm
    rcases List.mem_cons.mp hm with hm | hm
    · cases hd : decide (z < 0) <;> rw [hd] at hm <;> exact absurd hm (by decide)
    · exact absurd (toDigits_digit _ _ hm) (by decide)

theorem toDigits_inj {a b : Nat} (h : Nat.toDigits 10 a = Nat.toDigits 10 b) : a = b := by
  rw [← digits_toDigits a, h, digits_toDigits]

theorem toDigits_ne {n : Nat} : Nat.toDigits 10 n ≠ [] := Nat.toDigits_ne_nil

theorem chgName_inj {z w : Int} (h : chgName z = chgName w) : z = w := by
  have hs : ∀ z w : Int, signChar (decide (z < 0)) = signChar (decide (w < 0)) →
      (z < 0 ↔ w < 0) := by
    intro z w h
    by_cases h1 : z < 0 <;> by_cases h2 : w < 0 <;>
      simp only [h1, h2, decide_true, decide_false, signChar] at h ⊢ <;> simp at h
  unfold chgName at h
  by_cases hz : z = 0
  · by_cases hw : w = 0
    · omega
    · rw [if_pos hz, if_neg hw] at h; simp at h
  · by_cases hw : w = 0
    · rw [if_neg hz, if_pos hw] at h; simp at h
    · rw [if_neg hz, if_neg hw, List.cons.injEq] at h
      have := hs z w h.1
      have h2 := h.2
      split_ifs at h2 with a b b
      · omega
      · exact absurd h2.symm toDigits_ne
      · exact absurd h2 toDigits_ne
      · have := toDigits_inj h2
        omega

theorem chgName_ends (z : Int) : Ends (chgName z) := by
  rcases chgName_charge z with h | ⟨r, h | h⟩
  · exact Or.inl h
  · exact Or.inr ⟨_, _, h, Or.inl rfl⟩
  · exact Or.inr ⟨_, _, h, Or.inr (Or.inl rfl)⟩

end Verif.Equation
