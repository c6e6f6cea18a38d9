import Verif.Conc.Spec
import Verif.Grid.Lemmas
import Verif.NameDouble.Props
import Mathlib.Tactic.FieldSimp
import Mathlib.Tactic.Ring
import Mathlib.Tactic.Linarith
import Mathlib.Tactic.Positivity

/-! # Helper lemmas for concentrations -/

namespace Verif.Conc

open Verif.OMap Verif.NameDouble Verif.Mapping Verif.Grid Verif.Ranges

theorem mapM_ok {α β : Type} (l : List α) (f : α → Out β) (F : α → β)
    (h : ∀ a ∈ l, f a = .ok (F a)) : l.mapM f = .ok (l.map F) := by
  induction l with
  | nil => rfl
  | cons a l ih =>
    rw [List.mapM_cons, h a List.mem_cons_self, Out.ok_bind,
      ih (fun a ha => h a (List.mem_cons_of_mem _ ha))]
    rfl

/-! ## Totals keyed by plain element names -/

theorem isState_plain {n e : Name} (hn : '(' ∉ n) : IsState n e ↔ n = e := by
  constructor
  · rintro ⟨_, h | ⟨s, h⟩⟩
    · exact h
    · exact absurd (by rw [h]; simp) hn
  · rintro rfl; exact ⟨hn, .inl rfl⟩

theorem total_plain {nd : ND} (hs : Sorted nd) (hp : ∀ p ∈ nd, '(' ∉ p.1) (e : Name) :
    Total nd e (val nd e) := by
  induction nd with
  | nil => exact .nil e
  | cons p nd ih =>
    obtain ⟨n, v⟩ := p
    have hn := hp _ List.mem_cons_self
    have ih' := ih (List.pairwise_cons.mp hs).2 (fun p h => hp p (List.mem_cons_of_mem _ h))
    rw [val_cons]
    by_cases h : e = n
    · subst h
      rw [val_of_none (not_mem_keys_of_sorted hs)] at ih'
      rw [if_pos rfl]
      have := Total.hit (v := v) ((isState_plain hn).mpr rfl) ih'
      rwa [add_zero] at this
    · rw [if_neg h]
      exact .miss (fun hh => h ((isState_plain hn).mp hh).symm) ih'

/-- Totals that are already per element are not changed by combining redox states. -/
theorem simplifyRedox_plain {nd : ND} (hs : Sorted nd)
    (hp : ∀ p ∈ nd, (∀ c ∈ p.1, '(' < c) ∧ p.1 ≠ "H".toList ∧ p.1 ≠ "O".toList ∧
      p.1 ≠ "Charge".toList) : simplifyRedox nd = nd := by
  have hno : ∀ p ∈ nd, '(' ∉ p.1 := fun p h hm => lt_irrefl _ ((hp p h).1 _ hm)
  obtain ⟨h1, h2⟩ := simplifyRedox_spec nd hs (fun p h => ⟨p.1, (hp p h).1, .inl rfl⟩)
  refine OMap.ext h1 hs (fun e => ?_)
  cases hf : find nd e with
  | some v =>
    have hm := mem_of_find hf
    obtain ⟨_, a, b, c⟩ := hp _ hm
    refine (h2 e v).mpr ⟨a, b, c, ⟨_, hm, (isState_plain (hno _ hm)).mpr rfl⟩, ?_⟩
    have := total_plain hs hno e
    have hv : val nd e = v := by unfold val; rw [hf]
    rwa [hv] at this
  | none =>
    cases hf' : find (simplifyRedox nd) e with
    | none => rfl
    | some v =>
      exfalso
      obtain ⟨_, _, _, ⟨p, hp1, hp2⟩, _⟩ := (h2 e v).mp hf'
      have := (isState_plain (hno p hp1)).mp hp2
      rw [find_eq_none_iff] at hf
      exact hf (this ▸ List.mem_map.mpr ⟨p, hp1, rfl⟩)

theorem add_of_new {m : ND} {n : Name} (h : n ∉ keys m) (v : ℚ) : add m n v = insert m n v := by
  unfold add; rw [(find_eq_none_iff m n).mpr h]

theorem foldl_add (l : List (Name × ℚ)) (m : ND) (hm : Sorted m)
    (hn : (l.map Prod.fst).Nodup) (hd : ∀ p ∈ l, p.1 ∉ keys m) :
    let r := l.foldl (fun m p => add m p.1 p.2) m
    Sorted r ∧ (∀ e, e ∈ keys r ↔ e ∈ keys m ∨ e ∈ l.map Prod.fst) ∧
      (∀ p ∈ l, find r p.1 = some p.2) ∧ ∀ e, e ∉ l.map Prod.fst → find r e = find m e := by
  induction l generalizing m with
  | nil => exact ⟨hm, by simp, by simp, by simp⟩
  | cons p l ih =>
    simp only [List.map_cons, List.nodup_cons] at hn
    have hnew := hd p List.mem_cons_self
    simp only [List.foldl_cons, add_of_new hnew]
    obtain ⟨a, b, c, d⟩ := ih (insert m p.1 p.2) (sorted_insert hm _ _) hn.2 (by
      intro q hq hk
      rw [mem_keys_insert] at hk
      rcases hk with hk | hk
      · exact hn.1 (hk ▸ List.mem_map.mpr ⟨q, hq, rfl⟩)
      · exact hd q (List.mem_cons_of_mem _ hq) hk)
    refine ⟨a, fun e => ?_, fun q hq => ?_, fun e he => ?_⟩
    · rw [b e, mem_keys_insert, List.map_cons, List.mem_cons]; tauto
    · rcases List.mem_cons.mp hq with rfl | hq
      · rw [d _ hn.1, find_insert]; simp
      · exact c q hq
    · rw [List.map_cons, List.mem_cons, not_or] at he
      rw [d e he.2, find_insert, if_neg he.1]

theorem elementMoles_ok (u : Units) (dens vol : ℚ) (es : List Name) (cs gs : List ℚ)
    (hc : cs.length = es.length) (hg : gs.length = es.length) :
    ∃ l, elementMoles u dens vol es cs gs = .ok l ∧ l.map Prod.fst = es ∧
      ∀ (k : Nat) e c g, es[k]? = some e → cs[k]? = some c → gs[k]? = some g →
        l[k]? = some (e, clamp (molar u dens g c * vol)) := by
  induction es generalizing cs gs with
  | nil => exact ⟨[], rfl, rfl, by simp⟩
  | cons e es ih =>
    match cs, gs, hc, hg with
    | c :: cs, g :: gs, hc, hg =>
      obtain ⟨l, h1, h2, h3⟩ := ih cs gs (by simpa using hc) (by simpa using hg)
      refine ⟨(e, clamp (molar u dens g c * vol)) :: l, ?_, by simp [h2], ?_⟩
      · simp [elementMoles, h1]
      · intro k e' c' g' he hc' hg'
        cases k with
        | zero => simp_all
        | succ k =>
          simp only [List.getElem?_cons_succ] at *
          exact h3 k e' c' g' he hc' hg'

theorem elementConcs_ok (u : Units) (v dens : ℚ) (totals : ND) (es : List Name) (gs : List ℚ)
    (hg : gs.length = es.length) :
    ∃ l, elementConcs u v dens totals es gs = .ok l ∧ l.length = es.length ∧
      ∀ (k : Nat) e g, es[k]? = some e → gs[k]? = some g →
        l[k]? = some (conc u v dens g (val totals e)) := by
  induction es generalizing gs with
  | nil => exact ⟨[], by simp [elementConcs], rfl, by simp⟩
  | cons e es ih =>
    match gs, hg with
    | g :: gs, hg =>
      obtain ⟨l, h1, h2, h3⟩ := ih gs (by simpa using hg)
      refine ⟨conc u v dens g (val totals e) :: l, ?_, by simp [h2], ?_⟩
      · simp only [elementConcs, h1, Out.ok_bind]; rfl
      · intro k e' g' he hg'
        cases k with
        | zero => simp_all
        | succ k =>
          simp only [List.getElem?_cons_succ] at *
          exact h3 k e' g' he hg'

/-! ## Units -/

theorem molar_isMolar (u : Units) {dens g : ℚ} (c : ℚ) (hg : 0 < g) :
    IsMolar u dens g c (molar u dens g c) := by
  have := ne_of_gt hg
  cases u <;> simp only [IsMolar, molar] <;> field_simp

theorem isMolar_unique {u : Units} {dens g c m : ℚ} (hg : 0 < g) (h : IsMolar u dens g c m) :
    m = molar u dens g c := by
  have := ne_of_gt hg
  cases u <;> simp only [IsMolar, molar] at *
  · rw [h]; field_simp
  · exact h.symm
  · field_simp at h ⊢; linarith

theorem conc_molar (u : Units) {v dens g : ℚ} (c : ℚ) (hv : 0 < v) (hd : 0 < dens) (hg : 0 < g) :
    conc u v dens g (molar u dens g c * v) = c := by
  have h1 := ne_of_gt hg; have h2 := ne_of_gt hv; have h3 := ne_of_gt hd
  cases u <;> simp only [conc, molar] <;> field_simp

theorem conc_isMolar (u : Units) {v dens g : ℚ} (m : ℚ) (hv : 0 < v) (hd : 0 < dens)
    (hg : 0 < g) : IsMolar u dens g (conc u v dens g m) (m / v) := by
  have h1 := ne_of_gt hg; have h2 := ne_of_gt hv; have h3 := ne_of_gt hd
  cases u <;> simp only [conc, IsMolar] <;> field_simp

theorem waterConc_isMolar (u : Units) {v dens g : ℚ} (mw : ℚ) (hv : 0 < v) (hd : 0 < dens)
    (hg : 0 < g) : IsMolar u dens g (waterConc u v dens g mw) (mw * 1000 / g / v) := by
  have h1 := ne_of_gt hg; have h2 := ne_of_gt hv; have h3 := ne_of_gt hd
  cases u <;> simp only [waterConc, IsMolar] <;> field_simp
  ring

end Verif.Conc
