import Verif.Reaction.Mass

/-!
# Redox couples
-/

namespace Verif.Reaction

open Verif.Equation (strLe)

/-- One entry, seen through one name. -/
theorem put_filter (p : Name) {st : List Tok} {t : Tok}
    (htop : t.name = p → ∀ u ∈ st, u.name = p → st.head? = some u ∨ ∃ v, st.head? = some v ∧ v.name = p) :
    (put st t).filter (fun u => u.name == p) =
      if t.name = p then put (st.filter (fun u => u.name == p)) t else st.filter (fun u => u.name == p) := by
  cases st with
  | nil =>
    by_cases h : t.name = p
    · simp [put, h]
    · simp [put, h]
  | cons x r =>
    by_cases h : t.name = p
    · rw [if_pos h]
      by_cases hx : x.name = p
      · simp only [List.filter_cons, hx, beq_self_eq_true, if_true]
        simp only [put]
        split
        · split
          · rfl
          · simp [List.filter_cons, hx]
        · simp [List.filter_cons, h, hx]
      · have hns : same t x = false := by
          cases hs : same t x with
          | false => rfl
          | true => exact absurd ((same_iff.mp hs).2.symm.trans h) hx
        have hnil : (x :: r).filter (fun u => u.name == p) = [] := by
          rw [List.filter_eq_nil_iff]
          intro u hu
          simp only [beq_iff_eq]
          intro hup
          rcases htop h u hu hup with h1 | ⟨v, h1, h2⟩
          · cases h1; exact hx hup
          · cases h1; exact hx h2
        rw [hnil]
        simp only [put, hns]
        rw [if_neg (by simp), List.filter_cons, if_pos (by simp [h]), hnil]
    · rw [if_neg h]
      simp only [put]
      split
      · rename_i hs
        have hx : x.name ≠ p := fun e => h ((same_iff.mp hs).2.trans e)
        split
        · simp [List.filter_cons, hx]
        · simp [List.filter_cons, hx]
      · rw [List.filter_cons, if_neg (by simp [h])]

/-- The pass, seen through one name. -/
theorem pass_filter (p : Name) (todo : List Tok) : ∀ st : List Tok, (∀ u ∈ st ++ todo, u.sp = true) →
    st.Pairwise (fun u v => strLe v.name u.name = true ∧ v.name ≠ u.name) →
    (∀ u ∈ st, ∀ t ∈ todo, strLe u.name t.name = true) →
    todo.Pairwise (fun u v => strLe u.name v.name = true) →
    (todo.foldl put st).filter (fun u => u.name == p) =
      (todo.filter (fun u => u.name == p)).foldl put (st.filter (fun u => u.name == p)) := by
  induction todo with
  | nil => intro st _ _ _ _; rfl
  | cons t todo ih =>
    intro st hsp hst hle hp
    have hpc := List.pairwise_cons.mp hp
    have hone := pass_sorted [t] st (by intro u hu; apply hsp; rcases List.mem_append.mp hu with h | h <;> simp_all)
      hst (by intro u hu v hv; exact hle u hu v (by simp_all)) (by simp)
    have hput : (put st t).Pairwise (fun u v => strLe v.name u.name = true ∧ v.name ≠ u.name) := hone
    have hmem : ∀ u ∈ put st t, ∃ v ∈ st ++ [t], v.sp = u.sp ∧ v.name = u.name := pass_mem [t] st
    rw [List.foldl_cons, ih (put st t) ?_ hput ?_ hpc.2, put_filter p ?_]
    · by_cases h : t.name = p
      · rw [if_pos h, List.filter_cons, if_pos (by simp [h]), List.foldl_cons]
      · rw [if_neg h, List.filter_cons, if_neg (by simp [h])]
    · intro h u hu hup
      cases hs : st with
      | nil => rw [hs] at hu; cases hu
      | cons x r =>
        right
        refine ⟨x, rfl, ?_⟩
        rw [hs] at hu hst
        rcases List.mem_cons.mp hu with rfl | hu
        · exact hup
        · have h1 := (List.pairwise_cons.mp hst).1 u hu
          have h2 := hle x (by rw [hs]; simp) t (by simp)
          rw [h, ← hup] at h2
          rw [Verif.Equation.strLe_antisymm _ _ h2 h1.1, hup]
    · intro u hu
      rcases List.mem_append.mp hu with hu | hu
      · obtain ⟨v, hv, e1, _⟩ := hmem u hu
        rw [← e1]
        apply hsp
        rcases List.mem_append.mp hv with h | h <;> simp_all
      · exact hsp u (by simp [hu])
    · intro u hu v hv
      obtain ⟨x, hx, _, e2⟩ := hmem u hu
      rw [← e2]
      rcases List.mem_append.mp hx with h | h
      · exact hle x h v (by simp [hv])
      · rw [List.mem_singleton] at h
        subst h
        exact hpc.1 v hv

/-- Two entries of a name with opposite coefficients are taken out. -/
theorem combine_cancel {sort : List Tok → List Tok} (hs : Sorts sort) {t t' : Trxn}
    (h : combine sort t = .ok t') (hsp : ∀ u ∈ t.live.tail, u.sp = true) {p : Name} {a b : Tok}
    (hab : t.live.tail.filter (fun u => u.name == p) = [a, b]) (hz : a.coef + b.coef = 0) :
    ∀ u ∈ t'.live.tail, u.name ≠ p := by
  cases hl : t.live with
  | nil => rw [hl] at hab; cases hab
  | cons x r =>
    rw [hl] at hab hsp
    simp only [List.tail_cons] at hab hsp
    have hr : r ≠ [] := by rintro rfl; cases hab
    obtain ⟨s1, sr, sp', h1, h2', h3, h4⟩ := combine_two closed_true hs t hl hr (fun _ _ => trivial)
    rw [h2'] at h
    cases h
    have hp := (hs r).1
    have hso := (hs r).2
    rw [h1] at hp hso
    have hso' := List.pairwise_cons.mp hso
    have hf := pass_filter p sr [s1] (by intro u hu; exact hsp u (hp.subset (by simpa using hu))) (by simp)
      (by intro u hu v hv; rw [List.mem_singleton] at hu; subst hu; exact hso'.1 v hv) hso'.2
    have hfp : ((s1 :: sr).filter (fun u => u.name == p)).Perm [a, b] := by
      rw [← hab]; exact hp.filter _
    have hfold : (sr.filter (fun u => u.name == p)).foldl put ([s1].filter (fun u => u.name == p)) =
        ((s1 :: sr).filter (fun u => u.name == p)).foldl put [] := by
      by_cases e : s1.name = p
      · simp [List.filter_cons, e, put]
      · simp [List.filter_cons, e]
    have hsame : ∀ u ∈ [a, b], u.sp = true ∧ u.name = p := by
      intro u hu
      rw [← hab] at hu
      obtain ⟨h1, h2⟩ := List.mem_filter.mp hu
      exact ⟨hsp u h1, by simpa using h2⟩
    have hnil : (sr.foldl put [s1]).filter (fun u => u.name == p) = [] := by
      rw [hf, hfold]
      obtain ⟨a1, a2⟩ := hsame a (by simp)
      obtain ⟨b1, b2⟩ := hsame b (by simp)
      have key : ∀ c d : Tok, c.sp = true → d.sp = true → c.name = p → d.name = p → c.coef + d.coef = 0 →
          [c, d].foldl put [] = [] := by
        intro c d c1 d1 c2 d2 hcd
        have hs' : same d c = true := same_iff.mpr ⟨by rw [c1, d1], by rw [c2, d2]⟩
        have hsm : small (c.coef + d.coef) = true := by rw [hcd]; simp [small]
        simp only [List.foldl_cons, List.foldl_nil, put, hs', hsm, if_true]
      have hlen := hfp.length_eq
      generalize (s1 :: sr).filter (fun u => u.name == p) = F at hfp hlen
      obtain ⟨c, d, rfl⟩ := List.length_eq_two.mp hlen
      have hc : c ∈ [a, b] := hfp.subset (by simp)
      have hd : d ∈ [a, b] := hfp.subset (by simp)
      have hsum : c.coef + d.coef = 0 := by
        have := (hfp.map (·.coef)).sum_eq
        simpa [hz] using this
      exact key c d (hsame c hc).1 (hsame d hd).1 (hsame c hc).2 (hsame d hd).2 hsum
    intro u hu e
    have hu' : u ∈ sr.foldl put [s1] := by simpa using hu
    have : u ∈ (sr.foldl put [s1]).filter (fun u => u.name == p) := by
      rw [List.mem_filter]; exact ⟨hu', by simp [e]⟩
    rw [hnil] at this
    cases this

theorem swap_perm {α : Type} (l : List α) (j : Nat) (u h : α) (hu : l[j]? = some u) (hh : l[0]? = some h) :
    ((l.set 0 u).set j h).Perm l ∧ ((l.set 0 u).set j h).head? = some u := by
  cases l with
  | nil => cases hh
  | cons x l =>
    simp only [List.getElem?_cons_zero] at hh
    cases hh
    cases j with
    | zero =>
      simp only [List.getElem?_cons_zero] at hu
      cases hu
      simp
    | succ j =>
      simp only [List.getElem?_cons_succ] at hu
      obtain ⟨hlt, hg⟩ := List.getElem?_eq_some_iff.mp hu
      simp only [List.set_cons_zero, List.set_cons_succ, List.head?_cons, and_true]
      have hsplit : l = l.take j ++ u :: l.drop (j + 1) := by
        rw [← hg, ← List.drop_eq_getElem_cons hlt, List.take_append_drop]
      rw [List.set_eq_take_append_cons_drop, if_pos hlt]
      conv_rhs => rw [hsplit]
      refine (List.Perm.cons u List.perm_middle).trans ?_
      refine (List.Perm.swap _ _ _).trans (List.Perm.cons _ ?_)
      exact List.perm_middle.symm

theorem tot_mul (w : Weight) (c : ℚ) (l : List Tok) :
    tot w (l.map fun u => { u with coef := u.coef * c }) = c * tot w l := by
  induction l with
  | nil => simp [tot]
  | cons u l ih =>
    rw [List.map_cons, tot_cons, tot_cons, ih]
    ring

/-- `trxn_swap`. -/
theorem swap_ok {e : Name} {t t' : Trxn} (h : swap e t = .ok t') :
    ∃ u ∈ t.live, u.name = e ∧ u.coef ≠ 0 ∧ t'.live.head? = some ⟨e, true, -1⟩ ∧
      (∀ w, tot w t'.live = -1 / u.coef * tot w t.live) ∧ t'.logk = -1 / u.coef * t.logk ∧
      (t'.live.map (·.name)).Perm (t.live.map (·.name)) := by
  unfold swap at h
  cases hf : t.live.findIdx? (fun u => !u.sp || u.name == e) with
  | none => rw [hf] at h; cases h
  | some j =>
    rw [hf] at h
    dsimp only at h
    split at h
    · rename_i u hd x xs hu hh hsp
      split at h
      · cases h
      · split at h
        · cases h
        · rename_i h1 h2
          cases h
          obtain ⟨x1, x2, _⟩ := List.findIdx?_eq_some_iff_getElem.mp hf
          rw [List.getElem?_eq_getElem x1] at hu
          cases hu
          have hsp' : (t.live[j]).sp = true := by simpa using h1
          have hn : (t.live[j]).name = e := by
            rw [hsp'] at x2
            simpa using x2
          obtain ⟨p1, p2⟩ := swap_perm t.live j t.live[j] hd (List.getElem?_eq_getElem x1) hh
          refine ⟨t.live[j], List.getElem_mem x1, hn, h2, ?_, ?_, ?_, ?_⟩
          · simp only [multiply]
            rw [List.head?_map, p2]
            simp only [Option.map_some]
            congr 1
            have : t.live[j].coef * (-1 / t.live[j].coef) = -1 := by field_simp
            rw [this, ← hn, ← hsp']
          · intro w
            simp only [multiply]
            rw [tot_mul, tot_perm w p1]
          · simp only [multiply]; ring
          · simp only [multiply]
            rw [List.map_map]
            exact p1.map _
    · cases h

end Verif.Reaction
