import Verif.Pbasic.Ops

/-!
# The depth of calls given to the parser suffices
-/

namespace Verif.Pbasic

theorem Res.bind_eq_ok {α β : Type} {x : Res α} {f : α → Res β} {b : β} (h : x.bind f = .ok b) :
    ∃ a, x = .ok a ∧ f a = .ok b := by
  cases x with
  | ok a => exact ⟨a, rfl, h⟩
  | err => cases h
  | ub => cases h
  | out => cases h

theorem require_ok {k : Tok} {ts r : List Tok} (h : require k ts = .ok r) : ts = k :: r := by
  cases ts with
  | nil => cases h
  | cons t ts =>
    unfold require at h
    dsimp only at h
    by_cases e : t = k
    · rw [if_pos e] at h; injection h with h; rw [e, h]
    · rw [if_neg e] at h; cases h

/-- Every part of the parser leaves a shorter list of tokens. -/
theorem shorter (A : Arith) : ∀ f : Nat,
    (∀ l ts σ p, ev A f l ts σ = .ok p → p.2.1.length < ts.length) ∧
    (∀ l n ts σ p, loop A f l n ts σ = .ok p → p.2.1.length ≤ ts.length) ∧
    (∀ v ts σ p, findvar A f v ts σ = .ok p → p.2.1.length ≤ ts.length) ∧
    (∀ ds k ts σ p, subscripts A f ds k ts σ = .ok p → p.2.1.length < ts.length) := by
  intro f
  induction f with
  | zero =>
    refine ⟨?_, ?_, ?_, ?_⟩
    · intro l ts σ p h; simp [ev] at h
    · intro l n ts σ p h; simp [loop] at h
    · intro v ts σ p h; simp [findvar] at h
    · intro ds k ts σ p h; simp [subscripts] at h
  | succ f ih =>
    obtain ⟨he, hl, hf, hs⟩ := ih
    refine ⟨?_, ?_, ?_, ?_⟩
    · intro l ts σ p h
      cases l with
      | zero =>
        unfold ev at h
        split at h
        · cases h
        · cases h; simp
        · cases h; simp
        · obtain ⟨q, h1, h2⟩ := Res.bind_eq_ok h
          cases h2
          have := hf _ _ _ _ h1
          simp only [List.length_cons]; omega
        · obtain ⟨q, h1, h2⟩ := Res.bind_eq_ok h
          obtain ⟨r, h3, h4⟩ := Res.bind_eq_ok h2
          cases h4
          have := he _ _ _ _ h1
          rw [require_ok h3] at this
          simp only [List.length_cons] at this ⊢; omega
        · cases h
        · split at h
          · obtain ⟨q, h1, h2⟩ := Res.bind_eq_ok h
            obtain ⟨r, h3, h4⟩ := Res.bind_eq_ok h2
            cases h4
            have := he _ _ _ _ h1
            simp only [List.length_cons] at this ⊢; omega
          · cases h
      | succ l =>
        unfold ev at h
        obtain ⟨q, h1, h2⟩ := Res.bind_eq_ok h
        have := he _ _ _ _ h1
        have := hl _ _ _ _ _ h2
        omega
    · intro l n ts σ p h
      unfold loop at h
      split at h
      · rename_i o r0
        split at h
        · obtain ⟨q, h1, h2⟩ := Res.bind_eq_ok h
          obtain ⟨r, h3, h4⟩ := Res.bind_eq_ok h2
          have h5 := hl _ _ _ _ _ h4
          have h6 : q.2.1.length < r0.length := by
            split at h1
            · obtain ⟨x, _, h1⟩ := Res.bind_eq_ok h1
              exact he _ _ _ _ h1
            · exact he _ _ _ _ h1
          simp only [List.length_cons]; omega
        · cases h; exact le_refl _
      · cases h; exact le_refl _
    · intro v ts σ p h
      unfold findvar at h
      split at h
      · obtain ⟨σ', _, h2⟩ := Res.bind_eq_ok h
        obtain ⟨q, h3, h4⟩ := Res.bind_eq_ok h2
        split at h4
        · cases h4
          have := hs _ _ _ _ _ h3
          simp only [List.length_cons]; omega
        · cases h4
      · split at h
        · cases h
        · cases h; exact le_refl _
    · intro ds k ts σ p h
      cases ds with
      | nil =>
        unfold subscripts at h
        obtain ⟨r, h1, h2⟩ := Res.bind_eq_ok h
        cases h2
        rw [require_ok h1]; simp
      | cons d ds =>
        unfold subscripts at h
        obtain ⟨q, h1, h2⟩ := Res.bind_eq_ok h
        obtain ⟨x, _, h3⟩ := Res.bind_eq_ok h2
        obtain ⟨j, _, h4⟩ := Res.bind_eq_ok h3
        have := he _ _ _ _ h1
        split at h4
        · cases h4
        · split at h4
          · have := hs _ _ _ _ _ h4; omega
          · obtain ⟨r, h5, h6⟩ := Res.bind_eq_ok h4
            have h7 := hs _ _ _ _ _ h6
            have h8 := congrArg List.length (require_ok h5)
            simp only [List.length_cons] at h8; omega

theorem Res.bind_congr {α β : Type} {x y : Res α} {f g : α → Res β} (h : x = y)
    (h2 : ∀ a, x = .ok a → f a = g a) : x.bind f = y.bind g := by
  subst h
  cases x with
  | ok a => exact h2 a rfl
  | err => rfl
  | ub => rfl
  | out => rfl

/-- One more level of depth changes nothing. -/
theorem stable (A : Arith) : ∀ f : Nat,
    (∀ l ts σ, l ≤ 6 → 10 * ts.length + l + 1 ≤ f → ev A (f + 1) l ts σ = ev A f l ts σ) ∧
    (∀ l n ts σ, l ≤ 6 → 10 * ts.length + 1 ≤ f → loop A (f + 1) l n ts σ = loop A f l n ts σ) ∧
    (∀ v ts σ, 10 * ts.length + 1 ≤ f → findvar A (f + 1) v ts σ = findvar A f v ts σ) ∧
    (∀ ds k ts σ, 10 * ts.length + 8 ≤ f →
      subscripts A (f + 1) ds k ts σ = subscripts A f ds k ts σ) := by
  intro f
  induction f with
  | zero =>
    refine ⟨?_, ?_, ?_, ?_⟩
    · intro l ts σ _ h; omega
    · intro l n ts σ _ h; omega
    · intro v ts σ h; omega
    · intro ds k ts σ h; omega
  | succ f ih =>
    obtain ⟨he, hl, hf, hs⟩ := ih
    refine ⟨?_, ?_, ?_, ?_⟩
    · intro l ts σ h6 h
      cases l with
      | zero =>
        conv_lhs => unfold ev
        conv_rhs => unfold ev
        cases ts with
        | nil => rfl
        | cons t r =>
          simp only [List.length_cons] at h
          have h0 : ∀ σ, ev A (f + 1) 0 r σ = ev A f 0 r σ := fun σ => he 0 r σ (by omega) (by omega)
          cases t with
          | num q => rfl
          | str s => rfl
          | var v => dsimp only; rw [hf v r σ (by omega)]
          | lp => dsimp only; rw [he 6 r σ (by omega) (by omega)]
          | other => rfl
          | op o => dsimp only; rw [h0]
          | rp => dsimp only; rw [h0]
          | comma => dsimp only; rw [h0]
          | semi => dsimp only; rw [h0]
          | colon => dsimp only; rw [h0]
          | not => dsimp only; rw [h0]
          | fn k => dsimp only; rw [h0]
          | kw k => dsimp only; rw [h0]
      | succ l =>
        conv_lhs => unfold ev
        conv_rhs => unfold ev
        refine Res.bind_congr (he l ts σ (by omega) (by omega)) ?_
        intro p hp
        have := (shorter A (f + 1)).1 _ _ _ _ hp
        exact hl _ _ _ _ (by omega) (by omega)
    · intro l n ts σ h6 h
      conv_lhs => unfold loop
      conv_rhs => unfold loop
      cases ts with
      | nil => rfl
      | cons t r =>
        simp only [List.length_cons] at h
        cases t with
        | op o =>
          dsimp only
          by_cases ho : o.level = l
          · rw [if_pos ho, if_pos ho]
            have e : (if l = 1 then n.real.bind fun _ => ev A (f + 1) 1 r σ else ev A (f + 1) (l - 1) r σ)
                = (if l = 1 then n.real.bind fun _ => ev A f 1 r σ else ev A f (l - 1) r σ) := by
              by_cases h1 : l = 1
              · rw [if_pos h1, if_pos h1, he 1 r σ (by omega) (by omega)]
              · rw [if_neg h1, if_neg h1, he (l - 1) r σ (by omega) (by omega)]
            refine Res.bind_congr e ?_
            intro p hp
            have hlen : p.2.1.length < r.length := by
              by_cases h1 : l = 1
              · rw [if_pos h1] at hp
                obtain ⟨x, _, hp⟩ := Res.bind_eq_ok hp
                exact (shorter A _).1 _ _ _ _ hp
              · rw [if_neg h1] at hp
                exact (shorter A _).1 _ _ _ _ hp
            refine Res.bind_congr rfl ?_
            intro n' _
            exact hl _ _ _ _ h6 (by omega)
          · rw [if_neg ho, if_neg ho]
        | _ => rfl
    · intro v ts σ h
      conv_lhs => unfold findvar
      conv_rhs => unfold findvar
      cases ts with
      | nil => rfl
      | cons t r =>
        simp only [List.length_cons] at h
        cases t with
        | lp =>
          dsimp only
          refine Res.bind_congr rfl ?_
          intro σ' _
          rw [hs _ _ _ _ (by omega)]
        | _ => rfl
    · intro ds k ts σ h
      cases ds with
      | nil => rfl
      | cons d ds =>
        conv_lhs => unfold subscripts
        conv_rhs => unfold subscripts
        refine Res.bind_congr (he 6 ts σ (by omega) (by omega)) ?_
        intro p hp
        have hlen := (shorter A _).1 _ _ _ _ hp
        refine Res.bind_congr rfl ?_
        intro x _
        refine Res.bind_congr rfl ?_
        intro j _
        by_cases hj : j < 0 ∨ (d : Int) ≤ j
        · rw [if_pos hj, if_pos hj]
        · rw [if_neg hj, if_neg hj]
          by_cases hd : ds = []
          · rw [if_pos hd, if_pos hd]
            exact hs _ _ _ _ (by omega)
          · rw [if_neg hd, if_neg hd]
            refine Res.bind_congr rfl ?_
            intro r hr
            have e := require_ok hr
            rw [e] at hlen
            simp only [List.length_cons] at hlen
            exact hs _ _ _ _ (by omega)

theorem ev_stable (A : Arith) {l : Nat} {ts : List Tok} {σ : Env} (hl : l ≤ 6) {f : Nat}
    (h : 10 * ts.length + l + 1 ≤ f) : ∀ n, ev A (f + n) l ts σ = ev A f l ts σ
  | 0 => rfl
  | n + 1 => by
      rw [show f + (n + 1) = (f + n) + 1 by omega, (stable A (f + n)).1 l ts σ hl (by omega)]
      exact ev_stable A hl h n

theorem findvar_stable (A : Arith) {v : V} {ts : List Tok} {σ : Env} {f : Nat}
    (h : 10 * ts.length + 1 ≤ f) : ∀ n, findvar A (f + n) v ts σ = findvar A f v ts σ
  | 0 => rfl
  | n + 1 => by
      rw [show f + (n + 1) = (f + n) + 1 by omega, (stable A (f + n)).2.2.1 v ts σ (by omega)]
      exact findvar_stable A h n

end Verif.Pbasic
