import Verif.Assemble.Ends

/-! # Helper lemmas: each mineral and each component -/

namespace Verif.Assemble

open Spec

/-- Each solid of a chain has its own turn, between the sums at the start and at the end. -/
theorem Chain.each {db : Db} {α : Type} {R : α → α → St → St → Prop} {l l' : List α} {s s' : St} (h : Chain R l l' s s')
    (hR : ∀ c ∈ l, ∀ c' t t', R c c' t t' → ∀ e, Element db e → t.tot e ≤ t'.tot e) :
    List.Forall₂ (fun c c' => ∃ t t', (∀ e, Element db e → s.tot e ≤ t.tot e) ∧ (∀ e, Element db e → t'.tot e ≤ s'.tot e)
      ∧ R c c' t t') l l' ∧ ∀ e, Element db e → s.tot e ≤ s'.tot e := by
  induction h with
  | nil => exact ⟨.nil, fun _ _ => le_refl _⟩
  | @cons c c' l l' s1 s2 s3 h _ ih =>
    have h1 := hR c (List.mem_cons_self ..) _ _ _ h
    obtain ⟨i1, i2⟩ := ih fun d hd => hR d (List.mem_cons_of_mem _ hd)
    refine ⟨.cons ⟨s1, s2, fun _ _ => le_refl _, i2, h⟩ ?_, fun e he => le_trans (h1 e he) (i2 e he)⟩
    exact i1.imp fun a b ⟨t, t', k1, k2, k3⟩ => ⟨t, t', fun e he => le_trans (h1 e he) (k1 e he), k2, k3⟩

theorem Chain.turns {α : Type} {R : α → α → St → St → Prop} {l l' : List α} {s s' : St} (h : Chain R l l' s s') :
    List.Forall₂ (fun c c' => ∃ t t', R c c' t t') l l' := by
  induction h with
  | nil => exact .nil
  | cons h _ ih => exact .cons ⟨_, _, h⟩ ih

theorem forall2_mem {α β : Type} {R : α → β → Prop} {l : List α} {l' : List β} (h : List.Forall₂ R l l') :
    List.Forall₂ (fun a b => a ∈ l ∧ R a b) l l' := by
  induction h with
  | nil => exact .nil
  | cons h _ ih =>
    refine .cons ⟨List.mem_cons_self .., h⟩ (ih.imp fun a b k => ⟨List.mem_cons_of_mem _ k.1, k.2⟩)

theorem forall2_comp {α β γ : Type} {R : α → β → Prop} {S : β → γ → Prop} {l : List α} {l' : List β} {l'' : List γ}
    (h : List.Forall₂ R l l') (k : List.Forall₂ S l' l'') : List.Forall₂ (fun a c => ∃ b, R a b ∧ S b c) l l'' := by
  induction h generalizing l'' with
  | nil => cases k; exact .nil
  | cons h _ ih =>
    cases k with
    | cons k1 k2 => exact .cons ⟨_, h, k1⟩ (ih k2)

theorem prim_element {db : Db} {n : Name} {m : Master} (h : db.prim n = some m) (h1 : m.sp ≠ .hplus) (h2 : m.sp ≠ .h2o) :
    Element db m.name ∧ db.first n = m.name := by
  have hn := exact_name h
  refine ⟨⟨m, exact_mem h, rfl, ?_, h1, h2⟩, hn.symm⟩
  rw [hn]
  exact h

/-- Why a solid gave something. -/
theorem Gives.why {db : Db} {least : ℚ} {l : Amounts} {n g : ℚ} {st st' s0 : St} (hg : Gives db least l n g st st')
    (hl : ∀ x ∈ l, 0 ≤ x.2) (h0 : ∀ e, Element db e → s0.tot e ≤ st.tot e) (hpos : 0 < g) :
    ∃ x ∈ l, ∃ e, Element db e ∧ db.first x.1 = e ∧ s0.tot e ≤ least ∧ x.2 * g ≤ 1 / 10000000000 - s0.tot e := by
  obtain ⟨x, hx, m, k1, k2, k3, k4, k5⟩ := hg.cause hpos
  obtain ⟨he, hf⟩ := prim_element k1 k2 k3
  have h1 := h0 _ he
  refine ⟨x, hx, m.name, he, hf, le_trans h1 k4, ?_⟩
  have hx2 : 0 < x.2 := by
    rcases lt_or_eq_of_le (hl x hx) with h | h
    · exact h
    · rw [← h, div_zero] at k5
      exact absurd hpos (not_lt.mpr k5)
  rw [le_div_iff₀ hx2] at k5
  have : g * x.2 = x.2 * g := by ring
  linarith

end Verif.Assemble
