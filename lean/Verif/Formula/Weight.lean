import Verif.Formula.Props

/-! # C118: formula weights -/

namespace Verif.Formula

/-! ## Specification -/

/-- The weight of one unit of a formula from the weights of the elements. -/
def Fml.weight (w : Name → ℚ) : Fml → ℚ
  | .nil => 0
  | .elt e n r => coefValue n * w e + r.weight w
  | .group i n r => coefValue n * i.weight w + r.weight w

/-- The weight of one unit of a compound. -/
def Compound.weight (w : Name → ℚ) (m : Compound) : ℚ :=
  m.first.weight w + (m.more.map (fun q => coefValue q.1 * q.2.weight w)).sum

/-- All elements of a formula have a weight. -/
def Fml.Weighed (w : Name → ℚ) : Fml → Prop
  | .nil => True
  | .elt e _ r => 0 < w e ∧ r.Weighed w
  | .group i _ r => i.Weighed w ∧ r.Weighed w

/-- All elements of a compound have a weight. -/
def Compound.Weighed (w : Name → ℚ) (m : Compound) : Prop :=
  m.first.Weighed w ∧ ∀ q ∈ m.more, q.2.Weighed w

/-- A text is a formula of which the weight is known to be `g`. -/
def HasWeight (w : Name → ℚ) (s : Name) (g : ℚ) : Prop :=
  ∃ (m : Compound) (ch : List Char), s = m.text ++ ch ∧ Charge ch ∧ m.Good ∧
    OnesBeforeLast m.more ∧ m.Weighed w ∧ s.length < 256 ∧ g = m.weight w

/-- What is remembered is what would be computed. -/
def Faithful (w : Name → ℚ) (m : Cache) : Prop :=
  ∀ s g, cached m s = some g → ∃ m', computeGfw w [] s = .ok (g, m', true)

/-! ## Lemmas -/

/-- Weighted sum of entries. -/
def wsum (w : Name → ℚ) (l : List (Name × ℚ)) : ℚ := (l.map (fun p => p.2 * w p.1)).sum

theorem addWeights_ok (w : Name → ℚ) (l : List (Name × ℚ)) : (∀ p ∈ l, 0 < w p.1) → ∀ g,
    addWeights w g l = (g + wsum w l, true) := by
  induction l with
  | nil => intro _ g; simp [addWeights, wsum]
  | cons p l ih =>
    intro h g
    have hp := h p (by simp)
    simp only [addWeights, if_neg (not_le.mpr hp), ih (fun q hq => h q (by simp [hq]))]
    simp only [wsum, List.map_cons, List.sum_cons, Prod.mk.injEq, and_true]
    ring

theorem wsum_append (w : Name → ℚ) (a b : List (Name × ℚ)) : wsum w (a ++ b) = wsum w a + wsum w b := by
  simp [wsum]

theorem wsum_scale (w : Name → ℚ) (d : ℚ) (l : List (Name × ℚ)) :
    wsum w (scale d l) = d * wsum w l := by
  induction l with
  | nil => simp [wsum, scale]
  | cons p l ih =>
    simp only [wsum, scale, List.map_cons, List.sum_cons] at ih ⊢
    rw [ih]; ring

theorem wsum_items (w : Name → ℚ) (c : ℚ) (f : Fml) : wsum w (items c f) = c * f.weight w := by
  induction f with
  | nil => simp [items, wsum, Fml.weight]
  | elt e n r ih =>
    have : wsum w (items c (.elt e n r)) = coefValue n * c * w e + wsum w (items c r) := by
      simp [wsum, items]
    rw [this, ih]; simp only [Fml.weight]; ring
  | group i n r ih1 ih2 =>
    simp only [items, wsum_append, wsum_scale, ih1, ih2, Fml.weight]; ring

theorem wsum_more (w : Name → ℚ) (c : ℚ) (l : List (Option Num × Fml)) (h : OnesBeforeLast l) :
    wsum w (itemsMore c l) = c * (l.map (fun q => coefValue q.1 * q.2.weight w)).sum := by
  induction l with
  | nil => simp [itemsMore, wsum]
  | cons q l ih =>
    have h' : OnesBeforeLast l := fun a q' b e hb => h (q :: a) q' b (by simp [e]) hb
    simp only [itemsMore, wsum_scale, wsum_append, wsum_items, ih h', List.map_cons, List.sum_cons]
    by_cases hl : l = []
    · subst hl; simp; ring
    · rw [h [] q l rfl hl]; ring

theorem weighed_scale {w : Name → ℚ} {d : ℚ} {l : List (Name × ℚ)} (h : ∀ p ∈ l, 0 < w p.1) :
    ∀ p ∈ scale d l, 0 < w p.1 := by
  intro p hp
  obtain ⟨q, hq, rfl⟩ := List.mem_map.mp hp
  exact h q hq

theorem weighed_items {w : Name → ℚ} {c : ℚ} (f : Fml) : f.Weighed w →
    ∀ p ∈ items c f, 0 < w p.1 := by
  induction f with
  | nil => intro _ p hp; simp [items] at hp
  | elt e n r ih =>
    intro h p hp
    rcases List.mem_cons.mp hp with rfl | hp
    · exact h.1
    · exact ih h.2 p hp
  | group i n r ih1 ih2 =>
    intro h p hp
    rcases List.mem_append.mp hp with hp | hp
    · exact weighed_scale (ih1 h.1) p hp
    · exact ih2 h.2 p hp

theorem weighed_more {w : Name → ℚ} {c : ℚ} (l : List (Option Num × Fml)) :
    (∀ q ∈ l, q.2.Weighed w) → ∀ p ∈ itemsMore c l, 0 < w p.1 := by
  induction l with
  | nil => intro _ p hp; simp [itemsMore] at hp
  | cons q l ih =>
    intro h
    refine weighed_scale ?_
    intro p hp
    rcases List.mem_append.mp hp with hp | hp
    · exact weighed_items q.2 (h q (by simp)) p hp
    · exact ih (fun x hx => h x (by simp [hx])) p hp

theorem fresh {w : Name → ℚ} {s : Name} {g : ℚ} (h : HasWeight w s g) :
    computeGfw w [] s = .ok (g, [(s, g)], true) := by
  obtain ⟨m, ch, rfl, hch, hm, h1, hw, hl, rfl⟩ := h
  have e : elements (m.text ++ ch) 1 = .ok ⟨ch, items 1 m.first ++ itemsMore 1 m.more, 0, false⟩ :=
    rd_compound 1 hch m hm
  have hall : ∀ p ∈ items 1 m.first ++ itemsMore 1 m.more, 0 < w p.1 := by
    intro p hp
    rcases List.mem_append.mp hp with hp | hp
    · exact weighed_items _ hw.1 p hp
    · exact weighed_more _ hw.2 p hp
  have hsum : (0 : ℚ) + wsum w (items 1 m.first ++ itemsMore 1 m.more) = m.weight w := by
    rw [wsum_append, wsum_items, wsum_more w 1 _ h1]; simp [Compound.weight]
  have hc : cached [] (m.text ++ ch) = none := rfl
  unfold computeGfw
  rw [hc]
  simp only
  rw [if_neg (by unfold maxLength; omega), e, bind_ok, addWeights_ok w _ hall, hsum]
  rfl

theorem cached_cons (s : Name) (g : ℚ) (m : Cache) (x : Name) :
    cached ((s, g) :: m) x = if s = x then some g else cached m x := by
  unfold cached
  by_cases h : s = x <;> simp [h]

/-! ## Property theorems -/

/-- **C118.** Remembering weights changes nothing: with what was remembered being right, the outcome is
that of a computation without memory, and what is remembered afterwards is right too. -/
theorem memory_transparent (w : Name → ℚ) (m : Cache) (hm : Faithful w m) (s : Name) :
    (∀ g m' ok, computeGfw w m s = .ok (g, m', ok) →
      Faithful w m' ∧ ∃ m'', computeGfw w [] s = .ok (g, m'', ok)) ∧
    (computeGfw w m s = .err ↔ computeGfw w [] s = .err) ∧
    (computeGfw w m s = .ub ↔ computeGfw w [] s = .ub) ∧
    (computeGfw w m s = .stop ↔ computeGfw w [] s = .stop) := by
  cases hc : cached m s with
  | some g =>
    obtain ⟨m', h⟩ := hm s g hc
    have e : computeGfw w m s = .ok (g, m, true) := by unfold computeGfw; rw [hc]
    rw [e, h]
    refine ⟨?_, by simp, by simp, by simp⟩
    intro g' m'' ok heq
    cases heq
    exact ⟨hm, m', rfl⟩
  | none =>
    have hn : cached [] s = none := rfl
    unfold computeGfw
    rw [hc, hn]
    simp only
    split_ifs with hl
    · simp
    · cases ht : elements s 1 with
      | ok t =>
        simp only [bind_ok]
        refine ⟨?_, by simp, by simp, by simp⟩
        intro g m' ok heq
        cases heq
        refine ⟨?_, _, rfl⟩
        cases hg : (addWeights w 0 t.elts).2 with
        | false => simpa using hm
        | true =>
          simp only [if_true]
          intro x y hxy
          rw [cached_cons] at hxy
          split_ifs at hxy with hx
          · cases hxy
            subst hx
            refine ⟨[(s, (addWeights w 0 t.elts).1)], ?_⟩
            unfold computeGfw
            rw [hn]
            simp only [if_neg hl, ht, bind_ok, hg, if_true]
          · exact hm x y hxy
      | _ => simp

/-- The weight of a formula from a module that remembers only right weights. -/
theorem getGfw_partial {w : Name → ℚ} {m : Cache} (hm : Faithful w m) {s : Name} {g : ℚ}
    (h : HasWeight w s g) : ∃ m', getGfw w m s = .ok (g, m') ∧ Faithful w m' := by
  have hf := fresh h
  obtain ⟨h1, h2, h3, h4⟩ := memory_transparent w m hm s
  unfold getGfw
  cases hc : computeGfw w m s with
  | ok r =>
    obtain ⟨g', m', ok⟩ := r
    obtain ⟨k1, m'', k2⟩ := h1 g' m' ok hc
    rw [hf] at k2
    cases k2
    exact ⟨m', rfl, k1⟩
  | err => rw [hc, hf] at h2; simp at h2
  | ub => rw [hc, hf] at h3; simp at h3
  | stop => rw [hc, hf] at h4; simp at h4
  | fuel =>
    exfalso
    unfold computeGfw at hc
    cases hca : cached m s with
    | some g => rw [hca] at hc; simp at hc
    | none =>
      rw [hca] at hc
      simp only at hc
      split_ifs at hc
      cases ht : elements s 1 with
      | fuel => exact parse_total s 1 ht
      | ok t => rw [ht] at hc; simp at hc
      | _ => rw [ht] at hc; simp at hc

/-- **C118 (partial).** The vector of `GetGfw`: 1 for the charge, and for every other component the
weight of its formula, whatever was asked before. Missing: components of which an element has no
weight (`no_weight_violated`) or the formula cannot be read (`unreadable_violated`). -/
theorem gfwAll_partial (w : Name → ℚ) (l : List Name) : ∀ (m : Cache), Faithful w m →
    ∀ (gs : List ℚ), gs.length = l.length →
    (∀ (i : Nat) (c : Name) (g : ℚ), l[i]? = some c → gs[i]? = some g →
      (c = "Charge".toList ∧ g = 1) ∨ (c ≠ "Charge".toList ∧ HasWeight w c g)) →
    ∃ m', gfwAll w m l = .ok (gs, m') ∧ Faithful w m' := by
  induction l with
  | nil =>
    intro m hm gs hl _
    obtain rfl : gs = [] := List.length_eq_zero_iff.mp hl
    exact ⟨m, rfl, hm⟩
  | cons c l ih =>
    intro m hm gs hl h
    cases gs with
    | nil => simp at hl
    | cons g gs =>
      have h' : ∀ (i : Nat) (c : Name) (g : ℚ), l[i]? = some c → gs[i]? = some g →
          (c = "Charge".toList ∧ g = 1) ∨ (c ≠ "Charge".toList ∧ HasWeight w c g) :=
        fun i c' g' h1 h2 => h (i + 1) c' g' (by simpa using h1) (by simpa using h2)
      have hl' : gs.length = l.length := by simpa using hl
      rcases h 0 c g rfl rfl with ⟨h1, h2⟩ | ⟨h1, h2⟩
      · obtain ⟨m', e, hm'⟩ := ih m hm gs hl' h'
        refine ⟨m', ?_, hm'⟩
        simp only [gfwAll, if_pos h1, bind_ok, e, h2]
      · obtain ⟨m1, e1, hm1⟩ := getGfw_partial hm h2
        obtain ⟨m', e, hm'⟩ := ih m1 hm1 gs hl' h'
        refine ⟨m', ?_, hm'⟩
        simp only [gfwAll, if_neg h1, e1, bind_ok, e]

/-- A new module remembers nothing. -/
theorem faithful_nil (w : Name → ℚ) : Faithful w [] := by
  intro s g h; simp [cached] at h

/-- **C118, violated.** A component whose element has no positive weight gets the weight 0, and no error
is seen. -/
theorem no_weight_violated (w : Name → ℚ) (e : Name) (he : NameGood e) (hl : e.length < 256)
    (hw : w e ≤ 0) : getGfw w [] e = .ok (0, []) := by
  have h := rd_compound 1 (Or.inl rfl : Charge []) ⟨.elt e none .nil, []⟩
    ⟨⟨he, trivial, trivial⟩, by simp⟩
  have e1 : (⟨.elt e none .nil, []⟩ : Compound).text ++ [] = e := by
    simp [Compound.text, Fml.text, coefText, moreText]
  rw [e1] at h
  have h' : elements e 1 = .ok ⟨[], [(e, 1)], 0, false⟩ := by
    have : rd e 1 0 = .ok ⟨[], [(e, 1)], 0, false⟩ := by rw [h]; simp [items, itemsMore, coefValue]
    exact this
  have hc : computeGfw w [] e = .ok (0, [], false) := by
    unfold computeGfw
    have hn : cached [] e = none := rfl
    rw [hn]
    simp only
    rw [if_neg (by unfold maxLength; omega), h', bind_ok]
    simp [addWeights, hw]
  unfold getGfw
  rw [hc]

/-- **C118, violated.** The weight of a formula that cannot be read is the value of a variable that was
never assigned. -/
theorem unreadable_violated (w : Name → ℚ) : getGfw w [] "(CaSO4:2H2O)2".toList = .ub := by
  unfold getGfw computeGfw
  have hn : cached [] "(CaSO4:2H2O)2".toList = none := rfl
  have h : elements "(CaSO4:2H2O)2".toList 1 = .err := by decide +kernel
  rw [hn]
  simp only
  rw [if_neg (by decide), h]
  rfl

/-- A formula of 256 or more characters that is not remembered ends the program. -/
theorem long_formula_violated (w : Name → ℚ) (m : Cache) (s : Name) (hs : 256 ≤ s.length)
    (hm : cached m s = none) : getGfw w m s = .stop := by
  unfold getGfw computeGfw
  rw [hm]
  simp only
  rw [if_pos (by unfold maxLength; omega)]

/-- A case: the weights of water, charge, calcium, and calcium asked again. -/
def demoW (e : Name) : ℚ :=
  if e = ['H'] then 1 else if e = ['O'] then 16 else if e = ['C', 'a'] then 40 else 0

example : gfwAll demoW [] ["H2O".toList, "Charge".toList, "Ca".toList, "Ca".toList] =
    .ok ([18, 1, 40, 40], [("Ca".toList, 40), ("H2O".toList, 18)]) := by decide +kernel

example : HasWeight demoW "H2O".toList 18 := by
  refine ⟨⟨.elt ['H'] (some ⟨['2'], none⟩) (.elt ['O'] none .nil), []⟩, [], by decide, Or.inl rfl,
    ⟨⟨Or.inl ⟨'H', [], rfl, by decide, by simp⟩, ⟨by simp, by simp [Num.frac], by simp,
      by simp [Num.text]⟩, Or.inl ⟨'O', [], rfl, by decide, by simp⟩, trivial, trivial⟩, by simp⟩,
    ?_, ⟨⟨by decide +kernel, by decide +kernel, trivial⟩, by simp⟩, by decide, by decide +kernel⟩
  intro a q b e _
  simp at e

end Verif.Formula
