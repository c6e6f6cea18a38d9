import Verif.Pbasic.Expr
import Verif.Pbasic.Struct

/-!
# Lemmas for structured programs
-/

namespace Verif.Pbasic

/-! ## Tokens of expressions -/

/-- Tokens that stand in expressions. -/
def inExpr : Tok → Bool
  | .kw _ => false
  | .colon => false
  | .semi => false
  | .other => false
  | _ => true

/-- Tokens that begin expressions. -/
def beginsExpr : Tok → Bool
  | .var _ => true
  | .num _ => true
  | .str _ => true
  | .lp => true
  | .op _ => true
  | .not => true
  | .fn _ => true
  | _ => false

mutual
theorem writes_in : ∀ {l : Nat} {e : Ex} {ts : List Tok}, Writes l e ts → ∀ t ∈ ts, inExpr t = true
  | _, _, _, .num q => by simp [inExpr]
  | _, _, _, .str s => by simp [inExpr]
  | _, _, _, .var v => by simp [inExpr]
  | _, _, _, .elem h => by
      intro t ht
      simp only [List.mem_cons] at ht
      rcases ht with rfl | rfl | ht
      · rfl
      · rfl
      · exact argsWrites_in h t ht
  | _, _, _, .paren h => by
      intro t ht
      simp only [List.mem_cons, List.mem_append, List.not_mem_nil, or_false] at ht
      rcases ht with rfl | ht | rfl
      · rfl
      · exact writes_in h t ht
      · rfl
  | _, _, _, .neg h => by
      intro t ht; rcases List.mem_cons.mp ht with rfl | ht
      · rfl
      · exact writes_in h t ht
  | _, _, _, .pos h => by
      intro t ht; rcases List.mem_cons.mp ht with rfl | ht
      · rfl
      · exact writes_in h t ht
  | _, _, _, .not h => by
      intro t ht; rcases List.mem_cons.mp ht with rfl | ht
      · rfl
      · exact writes_in h t ht
  | _, _, _, .fn h => by
      intro t ht; rcases List.mem_cons.mp ht with rfl | ht
      · rfl
      · exact writes_in h t ht
  | _, _, _, .pow _ ha hb => by
      intro t ht
      simp only [List.mem_cons, List.mem_append] at ht
      rcases ht with ht | rfl | ht
      · exact writes_in ha t ht
      · rfl
      · exact writes_in hb t ht
  | _, _, _, .bin _ _ _ ha hb => by
      intro t ht
      simp only [List.mem_cons, List.mem_append] at ht
      rcases ht with ht | rfl | ht
      · exact writes_in ha t ht
      · rfl
      · exact writes_in hb t ht

theorem argsWrites_in : ∀ {a : Args} {ts : List Tok}, WritesArgs a ts → ∀ t ∈ ts, inExpr t = true
  | _, _, .one h => by
      intro t ht
      simp only [List.mem_cons, List.mem_append, List.not_mem_nil, or_false] at ht
      rcases ht with ht | rfl
      · exact writes_in h t ht
      · rfl
  | _, _, .more h ha => by
      intro t ht
      simp only [List.mem_cons, List.mem_append] at ht
      rcases ht with ht | rfl | ht
      · exact writes_in h t ht
      · rfl
      · exact argsWrites_in ha t ht
end

theorem writes_head : ∀ {us : List Tok} {l : Nat} {e : Ex}, Writes l e us →
    ∃ t r, us = t :: r ∧ beginsExpr t = true
  | _, _, _, .num q => ⟨_, _, rfl, rfl⟩
  | _, _, _, .str s => ⟨_, _, rfl, rfl⟩
  | _, _, _, .var v => ⟨_, _, rfl, rfl⟩
  | _, _, _, .elem h => ⟨_, _, rfl, rfl⟩
  | _, _, _, .paren h => ⟨_, _, rfl, rfl⟩
  | _, _, _, .neg h => ⟨_, _, rfl, rfl⟩
  | _, _, _, .pos h => ⟨_, _, rfl, rfl⟩
  | _, _, _, .not h => ⟨_, _, rfl, rfl⟩
  | _, _, _, .fn h => ⟨_, _, rfl, rfl⟩
  | _, _, _, .pow _ ha _ => by
      obtain ⟨t, r, e, h⟩ := writes_head ha; exact ⟨t, r ++ _, by rw [e]; rfl, h⟩
  | _, _, _, .bin _ _ _ ha _ => by
      obtain ⟨t, r, e, h⟩ := writes_head ha; exact ⟨t, r ++ _, by rw [e]; rfl, h⟩

/-! ## Expressions before something else -/

/-- Nothing that would continue an expression. -/
def Ends (rest : List Tok) : Prop := (∀ r, rest ≠ .lp :: r) ∧ ∀ o r, rest ≠ .op o :: r

theorem ends_kw (k : Kw) (r : List Tok) : Ends (.kw k :: r) := ⟨by simp, by simp⟩
theorem ends_rp (r : List Tok) : Ends (.rp :: r) := ⟨by simp, by simp⟩
theorem ends_nil : Ends [] := ⟨by simp, by simp⟩
theorem ends_sep {t : Tok} (h : t = .comma ∨ t = .semi) (r : List Tok) : Ends (t :: r) := by
  rcases h with rfl | rfl <;> exact ⟨by simp, by simp⟩

theorem ends_eos {rest : List Tok} (h : iseos rest = true) : Ends rest := by
  cases rest with
  | nil => exact ends_nil
  | cons t r =>
    cases t with
    | lp => simp [iseos] at h
    | op o => simp [iseos] at h
    | _ => exact ⟨by simp, by simp⟩

variable {A : Arith} {σ : Env}

theorem expr_of {e : Ex} {ts rest : List Tok} {x : Val} (h : Writes 6 e ts) (hd : Declared σ e)
    (hr : Ends rest) (hv : value A σ e = .ok x) : expr A (ts ++ rest) σ = .ok (x, rest, σ) := by
  rw [expr_value h hd hr.1 hr.2, hv]; rfl

theorem realexpr_of {e : Ex} {ts rest : List Tok} {q : ℚ} (h : Writes 6 e ts) (hd : Declared σ e)
    (hr : Ends rest) (hv : value A σ e = .ok (.num q)) :
    realexpr A (ts ++ rest) σ = .ok (q, rest, σ) := by
  unfold realexpr; rw [expr_of h hd hr hv]; rfl

theorem strexpr_of {e : Ex} {ts rest : List Tok} {s : List Char} (h : Writes 6 e ts)
    (hd : Declared σ e) (hr : Ends rest) (hv : value A σ e = .ok (.str s)) :
    strexpr A (ts ++ rest) σ = .ok (s, rest, σ) := by
  unfold strexpr; rw [expr_of h hd hr hv]; rfl

theorem intexpr_of {e : Ex} {ts rest : List Tok} {q : ℚ} {z : Int} (h : Writes 6 e ts)
    (hd : Declared σ e) (hr : Ends rest) (hv : value A σ e = .ok (.num q))
    (hz : nearest q = .ok z) : intexpr A (ts ++ rest) σ = .ok (z, rest, σ) := by
  unfold intexpr; rw [realexpr_of h hd hr hv]
  simp only [Res.bind_ok, roundLong_nearest, hz]

theorem nearest_nat {n : Nat} (h : (n : Int) < 2 ^ 63) : nearest (n : ℚ) = .ok (n : Int) := by
  have e : ⌊(n : ℚ) + 1 / 2⌋ = (n : Int) := by
    rw [Int.floor_eq_iff]
    constructor
    · push_cast; linarith
    · push_cast; linarith
  unfold nearest
  rw [e, if_pos ⟨by omega, h⟩]

theorem intexpr_num {n : Nat} {rest : List Tok} (h : (n : Int) < 2 ^ 63) (hr : Ends rest) :
    intexpr A (.num n :: rest) σ = .ok ((n : Int), rest, σ) :=
  intexpr_of (e := .num (n : ℚ)) (ts := [.num n]) (Writes.num _) (by unfold Declared; trivial) hr
    (by unfold value; rfl) (nearest_nat h)

theorem lvalue_var {v : V} {rest : List Tok} (h0 : (σ v).dims = []) (hr : ∀ r, rest ≠ .lp :: r) :
    lvalue A (.var v :: rest) σ = .ok ((v, 0), rest, σ) := by
  unfold lvalue
  dsimp only
  have : findvar A (fuelFor (.var v :: rest)) v rest σ = .ok (0, rest, σ) := by
    unfold fuelFor findvar
    cases rest with
    | nil => simp [h0]
    | cons t r =>
      cases t with
      | lp => exact absurd rfl (hr r)
      | _ => simp [h0]
  rw [this]; rfl

theorem lvalue_elem {v : V} {a : Args} {ta rest : List Tok} {k : Nat} (h : WritesArgs a ta)
    (hd : Declared σ (.elem v a)) (hk : cellOf A σ (σ v).dims 0 a = .ok k) :
    lvalue A (.var v :: .lp :: (ta ++ rest)) σ = .ok ((v, k), rest, σ) := by
  have hd : (σ v).dims.length = a.count ∧ DeclaredArgs σ a := by unfold Declared at hd; exact hd
  have hne : (σ v).dims ≠ [] := by
    intro h0; rw [h0] at hd; cases a <;> simp [Args.count] at hd
  obtain ⟨N, hN⟩ := writes_Q A h σ hd.2 (σ v).dims 0 rest hd.1 _ rfl
  have e1 : ∀ g, N ≤ g → findvar A (g + 1) v (.lp :: (ta ++ rest)) σ = .ok (k, rest, σ) := by
    intro g hg
    conv_lhs => unfold findvar
    dsimp only
    unfold autodim
    rw [if_neg hne, Res.bind_ok, hN g hg, hk]
    have := cellOf_lt hd.1 hk
    simp only [Res.bind_ok]
    rw [if_pos (by simpa using this)]
  unfold lvalue
  dsimp only
  rw [← findvar_stable A (by unfold fuelFor; simp only [List.length_cons]; omega) (N + 1),
    ← Nat.add_assoc, e1 _ (by omega)]
  rfl

theorem put_num {σ σ' : Env} {v : V} {k : Nat} {q : ℚ} (h : put σ v k (.num q) σ') :
    v.isStr = false ∧ σ' = σ.setNum v k q := by
  obtain ⟨h1, h2, h3, h4, h5⟩ := h
  refine ⟨h3, ?_⟩
  funext w
  unfold Env.setNum
  by_cases hw : w = v
  · subst hw
    rw [if_pos rfl]
    cases hσ : σ' w with
    | mk d n s =>
      rw [hσ] at h2 h4 h5
      have : n = fun i => if i = k then q else (σ w).numCell i := funext h5
      simp only [Var.mk.injEq]
      exact ⟨h2, this, h4⟩
  · rw [if_neg hw]; exact h1 w hw

theorem put_str {σ σ' : Env} {v : V} {k : Nat} {s : List Char} (h : put σ v k (.str s) σ') :
    v.isStr = true ∧ σ' = σ.setStr v k s := by
  obtain ⟨h1, h2, h3, h4, h5⟩ := h
  refine ⟨h3, ?_⟩
  funext w
  unfold Env.setStr
  by_cases hw : w = v
  · subst hw
    rw [if_pos rfl]
    cases hσ : σ' w with
    | mk d n t =>
      rw [hσ] at h2 h4 h5
      have : t = fun i => if i = k then s else (σ w).strCell i := funext h5
      simp only [Var.mk.injEq]
      exact ⟨h2, h4, this⟩
  · rw [if_neg hw]; exact h1 w hw

/-! ## The machine -/

/-- The machine at a place. -/
def cfg (ln : List Line) (tok : List Tok) (s : St) (L : List Frame) (d : List Line × List Tok) : M :=
  ⟨ln, tok, s.env, L, d.1, d.2, s.outp⟩

/-- The machine at the beginning of a line. -/
def top (ln : List Line) (s : St) (L : List Frame) (d : List Line × List Tok) : M :=
  cfg ln (firstTxt ln) s L d

/-- The machine behind a statement. -/
def after (x : Line) (ls : List Line) (rest : List Tok) (s : St) (L : List Frame)
    (d : List Line × List Tok) : M :=
  if rest = [] then top ls s L d else cfg (x :: ls) rest s L d

/-- The machine gets from one place to another. -/
def Reach (A : Arith) (prog : List Line) (m m' : M) : Prop := ∃ n, run A prog n m = .ok m'

theorem run_ended {prog : List Line} {m : M} (h : m.ln = []) : ∀ n, run A prog n m = .ok m
  | 0 => rfl
  | n + 1 => by unfold run; rw [if_pos h]

theorem run_add {prog : List Line} : ∀ {n1 n2 : Nat} {m m1 m2 : M}, run A prog n1 m = .ok m1 →
    run A prog n2 m1 = .ok m2 → run A prog (n1 + n2) m = .ok m2
  | 0, n2, m, m1, m2, h1, h2 => by
      have : m = m1 := by simpa [run] using h1
      subst this; rw [Nat.zero_add]; exact h2
  | n1 + 1, n2, m, m1, m2, h1, h2 => by
      rw [show n1 + 1 + n2 = (n1 + n2) + 1 by omega]
      unfold run at h1 ⊢
      by_cases h : m.ln = []
      · rw [if_pos h] at h1 ⊢
        cases h1
        rw [run_ended h] at h2
        exact h2
      · rw [if_neg h] at h1 ⊢
        obtain ⟨m', hm, h1⟩ := Res.bind_eq_ok h1
        rw [hm, Res.bind_ok]
        exact run_add h1 h2

theorem Reach.refl {prog : List Line} {m : M} : Reach A prog m m := ⟨0, rfl⟩

theorem Reach.then {prog : List Line} {m m1 m2 : M} (h1 : Reach A prog m m1)
    (h2 : Reach A prog m1 m2) : Reach A prog m m2 := by
  obtain ⟨n1, h1⟩ := h1
  obtain ⟨n2, h2⟩ := h2
  exact ⟨n1 + n2, run_add h1 h2⟩

/-- One statement. -/
theorem Reach.step {prog : List Line} {x : Line} {ls : List Line} {t : Tok} {ts : List Tok} {s : St}
    {L : List Frame} {d : List Line × List Tok} {p : M × Flag} {m' : M} (ht : t ≠ .colon)
    (h : command A prog t (cfg (x :: ls) ts s L d) = .ok p) (hf : finish p = .ok m') :
    Reach A prog (cfg (x :: ls) (t :: ts) s L d) m' := by
  refine ⟨1, ?_⟩
  unfold run
  rw [if_neg (by simp [cfg])]
  have hd : dropColons (t :: ts) = t :: ts := by
    unfold dropColons
    split
    · rename_i e; cases e; exact absurd rfl ht
    · rfl
  have : Pbasic.step A prog (cfg (x :: ls) (t :: ts) s L d) = .ok m' := by
    unfold Pbasic.step
    have e : (cfg (x :: ls) (t :: ts) s L d).tok = t :: ts := rfl
    rw [e, hd]
    dsimp only
    have e2 : ({ cfg (x :: ls) (t :: ts) s L d with tok := ts } : M) = cfg (x :: ls) ts s L d := rfl
    rw [e2, h]
    exact hf
  rw [this]
  rfl

/-- A colon before a statement does not matter. -/
theorem Reach.colon {prog : List Line} {x : Line} {ls : List Line} {ts : List Tok} {s : St}
    {L : List Frame} {d : List Line × List Tok} {m' : M} (hm : m' ≠ cfg (x :: ls) ts s L d)
    (h : Reach A prog (cfg (x :: ls) ts s L d) m') :
    Reach A prog (cfg (x :: ls) (.colon :: ts) s L d) m' := by
  obtain ⟨n, h⟩ := h
  cases n with
  | zero =>
    have : cfg (x :: ls) ts s L d = m' := by simpa [run] using h
    exact absurd this.symm hm
  | succ n =>
    refine ⟨n + 1, ?_⟩
    unfold run at h ⊢
    rw [if_neg (by simp [cfg])] at h ⊢
    have e : Pbasic.step A prog (cfg (x :: ls) (.colon :: ts) s L d)
        = Pbasic.step A prog (cfg (x :: ls) ts s L d) := by
      unfold Pbasic.step
      have e1 : dropColons (cfg (x :: ls) (.colon :: ts) s L d).tok
          = dropColons (cfg (x :: ls) ts s L d).tok := rfl
      rw [e1]
      rfl
    rw [e]; exact h

/-- A statement that ends at the end of a statement. -/
theorem finish_after {x : Line} {ls : List Line} {rest : List Tok} {s : St} {L : List Frame}
    {d : List Line × List Tok} (hr : iseos rest = true) :
    finish (cfg (x :: ls) rest s L d, .plain) = .ok (after x ls rest s L d) := by
  unfold finish after
  have e : (cfg (x :: ls) rest s L d).tok = rest := rfl
  rw [if_neg (by simp [e, hr])]
  by_cases h : rest = []
  · subst h; simp [cfg, top]
  · rw [if_pos (by exact h), if_neg h]

end Verif.Pbasic
