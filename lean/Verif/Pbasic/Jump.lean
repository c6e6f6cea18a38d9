import Verif.Pbasic.Cells
import Verif.Pbasic.Data

/-!
# Lemmas on `ON`, and on the first use of an array
-/

namespace Verif.Pbasic

variable {A : Arith} {prog : List Line}

/-! ## Specification -/

/-- The list of line numbers behind `ON ... GOTO`. -/
inductive WritesNums : List Nat → List Tok → Prop where
  | one (n : Nat) : WritesNums [n] [.num n]
  | more {n : Nat} {ns : List Nat} {ts : List Tok} (h : WritesNums ns ts) :
      WritesNums (n :: ns) (.num n :: .comma :: ts)

/-- Subscripts of which none contains a comma. -/
inductive WritesFlat : Args → List Tok → Prop where
  | one {e : Ex} {te : List Tok} (h : Writes 6 e te) (hc : .comma ∉ te) :
      WritesFlat (.one e) (te ++ [.rp])
  | more {e : Ex} {a : Args} {te ta : List Tok} (h : Writes 6 e te) (hc : .comma ∉ te)
      (ha : WritesFlat a ta) : WritesFlat (.more e a) (te ++ .comma :: ta)

/-- `σ1` is `σ` after `DIM v(10,...,10)` with `n` subscripts. -/
def DimTen (σ : Env) (v : V) (n : Nat) (σ1 : Env) : Prop :=
  σ1 v = ⟨List.replicate n 11, fun _ => 0, fun _ => []⟩ ∧ ∀ w, w ≠ v → σ1 w = σ w

/-! ## `ON` -/

theorem nums_head {ns : List Nat} {ts : List Tok} (h : WritesNums ns ts) :
    ∃ n r, ts = .num n :: r := by
  cases h <;> exact ⟨_, _, rfl⟩

theorem onList_in {ns : List Nat} {ts : List Tok} (h : WritesNums ns ts) : ∀ {i n : Nat}
    {rest : List Tok}, iseos rest = true → ns[i]? = some n →
    ∃ r, onList i (ts ++ rest) = .ok (.num n :: r) ∧ Ends r := by
  induction h with
  | one n =>
    intro i k rest hr hi
    cases i with
    | zero =>
      simp only [List.getElem?_cons_zero, Option.some.injEq] at hi
      subst hi
      exact ⟨rest, by unfold onList; rfl, ends_eos hr⟩
    | succ i => simp at hi
  | more h ih =>
    rename_i m ns ts
    intro i k rest hr hi
    cases i with
    | zero =>
      simp only [List.getElem?_cons_zero, Option.some.injEq] at hi
      subst hi
      exact ⟨.comma :: (ts ++ rest), by unfold onList; rfl, ends_sep (Or.inl rfl) _⟩
    | succ i =>
      rw [List.getElem?_cons_succ] at hi
      obtain ⟨r, h1, h2⟩ := ih hr hi
      refine ⟨r, ?_, h2⟩
      rw [List.cons_append, List.cons_append]
      unfold onList
      rw [if_neg (by simp [iseos])]
      dsimp only
      rw [if_neg (by simp [iseos])]
      simp only [require, if_true, Res.bind_ok]
      exact h1

theorem onList_eos {rest : List Tok} (hr : iseos rest = true) (i : Nat) :
    onList i rest = .ok rest := by
  cases i with
  | zero => unfold onList; rfl
  | succ i => unfold onList; rw [if_pos hr]

theorem onList_out {ns : List Nat} {ts : List Tok} (h : WritesNums ns ts) : ∀ {i : Nat}
    {rest : List Tok}, iseos rest = true → ns.length ≤ i →
    onList i (ts ++ rest) = .ok rest := by
  induction h with
  | one n =>
    intro i rest hr hi
    cases i with
    | zero => simp at hi
    | succ i =>
      unfold onList
      rw [if_neg (by simp [iseos])]
      simp only [List.cons_append, List.nil_append]
      rw [if_pos hr]
      exact onList_eos hr i
  | more h ih =>
    intro i rest hr hi
    cases i with
    | zero => simp at hi
    | succ i =>
      rw [List.cons_append, List.cons_append]
      unfold onList
      rw [if_neg (by simp [iseos])]
      dsimp only
      rw [if_neg (by simp [iseos])]
      simp only [require, if_true, Res.bind_ok]
      exact ih hr (by simpa using hi)

theorem skiptoeos_nums {ns : List Nat} {ts : List Tok} (h : WritesNums ns ts) {rest : List Tok}
    (hr : iseos rest = true) : skiptoeos (ts ++ rest) = rest := by
  induction h with
  | one n =>
    rw [List.cons_append, List.nil_append]
    unfold skiptoeos
    rw [if_neg (by simp [iseos])]
    cases rest with
    | nil => rfl
    | cons t r => unfold skiptoeos; rw [if_pos hr]
  | more h ih =>
    rw [List.cons_append, List.cons_append]
    unfold skiptoeos
    rw [if_neg (by simp [iseos])]
    unfold skiptoeos
    rw [if_neg (by simp [iseos])]
    exact ih

theorem data_in {es : List Ex} {ts : List Tok} (h : WritesData es ts) :
    ∀ t ∈ ts, inExpr t = true ∨ t = .comma := by
  induction h with
  | one h => exact fun t ht => Or.inl (writes_in h t ht)
  | more h _ ih =>
    intro t ht
    rcases List.mem_append.mp ht with ht | ht
    · exact Or.inl (writes_in h t ht)
    · rcases List.mem_cons.mp ht with rfl | ht
      · exact Or.inr rfl
      · exact ih t ht

theorem skiptoeos_in {rest : List Tok} (hr : iseos rest = true) : ∀ {ts : List Tok},
    (∀ t ∈ ts, inExpr t = true ∨ t = .comma) → skiptoeos (ts ++ rest) = rest
  | [], _ => by
      cases rest with
      | nil => rfl
      | cons t r => rw [List.nil_append]; unfold skiptoeos; rw [if_pos hr]
  | t :: ts, h => by
      rw [List.cons_append]
      unfold skiptoeos
      have ht : iseos (t :: (ts ++ rest)) = false := by
        rcases h t (by simp) with ht | rfl
        · cases t with
          | kw k => cases k <;> simp [inExpr, iseos] at ht ⊢
          | _ => simp [inExpr, iseos] at ht ⊢
        · rfl
      rw [if_neg (by rw [ht]; simp)]
      exact skiptoeos_in hr fun u hu => h u (List.mem_cons_of_mem _ hu)

/-! ## The first use of an array -/

theorem skipparen_step {f : Nat} {t : Tok} {r : List Tok} (h : t ≠ .rp ∧ t ≠ .comma ∧ t ≠ .lp) :
    skipparen (f + 1) (t :: r) = skipparen f r := by
  conv_lhs => unfold skipparen
  rw [if_neg (by simp [h.1, h.2.1]), if_neg h.2.2]


theorem skipparen_mono : ∀ {f : Nat} {r x : List Tok}, skipparen f r = .ok x → ∀ g, f ≤ g →
    skipparen g r = .ok x
  | 0, r, x, h => by unfold skipparen at h; cases h
  | f + 1, [], x, h => by unfold skipparen at h; cases h
  | f + 1, t :: r, x, h => by
      intro g hg
      obtain ⟨g, rfl⟩ : ∃ k, g = k + 1 := ⟨g - 1, by omega⟩
      unfold skipparen at h ⊢
      by_cases h1 : t = .rp ∨ t = .comma
      · rw [if_pos h1] at h ⊢; exact h
      · rw [if_neg h1] at h ⊢
        by_cases h2 : t = .lp
        · rw [if_pos h2] at h ⊢
          obtain ⟨r', h3, h4⟩ := Res.bind_eq_ok h
          rw [skipparen_mono h3 g (by omega), Res.bind_ok]
          exact skipparen_mono h4 g (by omega)
        · rw [if_neg h2] at h ⊢
          exact skipparen_mono h g (by omega)

/-- The tokens are passed. -/
def Passes (ts : List Tok) : Prop := ∀ f r x, skipparen f r = .ok x →
  skipparen (f + ts.length) (ts ++ r) = .ok x

theorem passes_cons {t : Tok} {ts : List Tok} (h : t ≠ .rp ∧ t ≠ .comma ∧ t ≠ .lp)
    (hs : Passes ts) : Passes (t :: ts) := by
  intro f r x hx
  rw [List.length_cons, ← Nat.add_assoc, List.cons_append, skipparen_step h]
  exact hs f r x hx

theorem passes_nil : Passes [] := fun _ _ _ h => h

theorem passes_append {ts us : List Tok} (h1 : Passes ts) (h2 : Passes us) : Passes (ts ++ us) := by
  intro f r x hx
  rw [List.length_append, List.append_assoc, Nat.add_comm ts.length, ← Nat.add_assoc]
  exact h1 _ _ x (h2 f r x hx)

theorem passes_paren {ts : List Tok} (h : Passes ts) : Passes (.lp :: (ts ++ [.rp])) := by
  intro f r x hx
  have e : f + (.lp :: (ts ++ [.rp]) : List Tok).length = (f + 1 + ts.length) + 1 := by
    simp only [List.length_cons, List.length_append, List.length_nil]; omega
  rw [e, List.cons_append, List.append_assoc]
  unfold skipparen
  rw [if_neg (by simp), if_pos rfl]
  have : skipparen (f + 1) ([.rp] ++ r) = .ok (.rp :: r) := by
    rw [List.singleton_append]; unfold skipparen; rw [if_pos (Or.inl rfl)]
  rw [h _ _ _ this, Res.bind_ok]
  exact skipparen_mono hx _ (by omega)

mutual
theorem passes_writes : ∀ {us : List Tok} {l : Nat} {e : Ex}, Writes l e us → .comma ∉ us → Passes us
  | _, _, _, .num q, _ => passes_cons ⟨by simp, by simp, by simp⟩ passes_nil
  | _, _, _, .str s, _ => passes_cons ⟨by simp, by simp, by simp⟩ passes_nil
  | _, _, _, .var v, _ => passes_cons ⟨by simp, by simp, by simp⟩ passes_nil
  | _, _, _, .elem h, hc => by
      refine passes_cons ⟨by simp, by simp, by simp⟩ ?_
      obtain ⟨te, rfl, ht⟩ := passes_args h (by intro h'; exact hc (by simp [h']))
      exact passes_paren ht
  | _, _, _, .paren h, hc =>
      passes_paren (passes_writes h (by intro h'; exact hc (by simp [h'])))
  | _, _, _, .neg h, hc => passes_cons ⟨by simp, by simp, by simp⟩
      (passes_writes h (by intro h'; exact hc (by simp [h'])))
  | _, _, _, .pos h, hc => passes_cons ⟨by simp, by simp, by simp⟩
      (passes_writes h (by intro h'; exact hc (by simp [h'])))
  | _, _, _, .not h, hc => passes_cons ⟨by simp, by simp, by simp⟩
      (passes_writes h (by intro h'; exact hc (by simp [h'])))
  | _, _, _, .fn h, hc => passes_cons ⟨by simp, by simp, by simp⟩
      (passes_writes h (by intro h'; exact hc (by simp [h'])))
  | _, _, _, .pow _ ha hb, hc =>
      passes_append (passes_writes ha (by intro h'; exact hc (by simp [h'])))
        (passes_cons ⟨by simp, by simp, by simp⟩
          (passes_writes hb (by intro h'; exact hc (by simp [h']))))
  | _, _, _, .bin _ _ _ ha hb, hc =>
      passes_append (passes_writes ha (by intro h'; exact hc (by simp [h'])))
        (passes_cons ⟨by simp, by simp, by simp⟩
          (passes_writes hb (by intro h'; exact hc (by simp [h']))))

theorem passes_args : ∀ {us : List Tok} {a : Args}, WritesArgs a us → .comma ∉ us →
    ∃ te, us = te ++ [.rp] ∧ Passes te
  | _, _, .one h, hc => ⟨_, rfl, passes_writes h (by intro h'; exact hc (by simp [h']))⟩
  | _, _, .more h ha, hc => absurd (by simp) hc
end

theorem autodims_flat {a : Args} {ta : List Tok} (h : WritesFlat a ta) : ∀ {f i : Nat} {t : Tok}
    (rest : List Tok), a.count ≤ f → i + a.count ≤ 4 →
    autodims f i (t :: (ta ++ rest)) = .ok (List.replicate (i + a.count) 11) := by
  induction h with
  | one h hc =>
    rename_i e te
    intro f i t rest hf hi
    simp only [Args.count] at hf hi
    obtain ⟨f, rfl⟩ : ∃ k, f = k + 1 := ⟨f - 1, by omega⟩
    unfold autodims
    rw [if_neg (by omega), List.tail_cons, List.append_assoc]
    have h1 : skipparen ((t :: (te ++ ([.rp] ++ rest))).length + 1) (te ++ ([.rp] ++ rest))
        = .ok (.rp :: rest) := by
      refine skipparen_mono (passes_writes h hc 1 ([.rp] ++ rest) (.rp :: rest) ?_) _ ?_
      · rw [List.singleton_append]; unfold skipparen; rw [if_pos (Or.inl rfl)]
      · simp only [List.length_cons, List.length_append]; omega
    rw [h1]
    rfl
  | more h hc _ ih =>
    rename_i e a te ta _
    intro f i t rest hf hi
    simp only [Args.count] at hf hi
    obtain ⟨f, rfl⟩ : ∃ k, f = k + 1 := ⟨f - 1, by omega⟩
    unfold autodims
    rw [if_neg (by omega), List.tail_cons, List.append_assoc, List.cons_append]
    have h1 : skipparen ((t :: (te ++ .comma :: (ta ++ rest))).length + 1) (te ++ .comma :: (ta ++ rest))
        = .ok (.comma :: (ta ++ rest)) := by
      refine skipparen_mono (passes_writes h hc 1 (.comma :: (ta ++ rest)) _ ?_) _ ?_
      · unfold skipparen; rw [if_pos (Or.inr rfl)]
      · simp only [List.length_cons, List.length_append]; omega
    rw [h1]
    simp only [Res.bind_ok]
    rw [ih rest (by omega) (by omega), Args.count]
    congr 2
    omega

theorem count_pos (a : Args) : 1 ≤ a.count := by cases a <;> simp [Args.count]

theorem findvar_first {a : Args} {ta rest : List Tok} {v : V} {σ σ1 : Env} (h : WritesFlat a ta)
    (hn : a.count ≤ 4) (h0 : (σ v).dims = []) (h1 : DimTen σ v a.count σ1) (f : Nat) :
    findvar A f v (.lp :: (ta ++ rest)) σ = findvar A f v (.lp :: (ta ++ rest)) σ1 := by
  cases f with
  | zero => unfold findvar; rfl
  | succ f =>
    unfold findvar
    dsimp only
    have e1 : autodim v (.lp :: (ta ++ rest)) σ = .ok σ1 := by
      unfold autodim
      rw [if_pos h0, autodims_flat h rest (by omega) (by omega), Nat.zero_add, Res.bind_ok]
      congr 1
      funext w
      unfold Env.alloc
      by_cases hw : w = v
      · rw [if_pos hw, hw, h1.1]
      · rw [if_neg hw, h1.2 w hw]
    have e2 : autodim v (.lp :: (ta ++ rest)) σ1 = .ok σ1 := by
      unfold autodim
      have := count_pos a
      rw [if_neg (by rw [h1.1]; simp; omega)]
    rw [e1, e2]

theorem ev_first {a : Args} {ta rest : List Tok} {v : V} {σ σ1 : Env} (h : WritesFlat a ta)
    (hn : a.count ≤ 4) (h0 : (σ v).dims = []) (h1 : DimTen σ v a.count σ1) : ∀ (l f : Nat),
    ev A f l (.var v :: .lp :: (ta ++ rest)) σ = ev A f l (.var v :: .lp :: (ta ++ rest)) σ1
  | _, 0 => by unfold ev; rfl
  | 0, f + 1 => by
      unfold ev
      dsimp only
      rw [findvar_first h hn h0 h1 f]
  | l + 1, f + 1 => by
      conv_lhs => unfold ev
      conv_rhs => unfold ev
      rw [ev_first h hn h0 h1 l f]

/-! ## Every expression can be written -/

theorem writes_up {l l' : Nat} {e : Ex} {ts : List Tok} (h : Writes l e ts) (hl' : l ≤ l') :
    Writes l' e ts := by
  cases h with
  | num q => exact .num q
  | str s => exact .str s
  | var v => exact .var v
  | elem h => exact .elem h
  | paren h => exact .paren h
  | neg h => exact .neg h
  | pos h => exact .pos h
  | not h => exact .not h
  | fn h => exact .fn h
  | pow hl ha hb => exact .pow (by omega) ha hb
  | bin ho hp hl ha hb => exact .bin ho hp (by omega) ha hb

mutual
theorem writes_exists : ∀ e : Ex, ∃ ts, Writes 0 e ts
  | .num q => ⟨_, .num q⟩
  | .str s => ⟨_, .str s⟩
  | .var v => ⟨_, .var v⟩
  | .elem v a => by obtain ⟨_, h⟩ := writesArgs_exists a; exact ⟨_, .elem h⟩
  | .neg e => by obtain ⟨_, h⟩ := writes_exists e; exact ⟨_, .neg h⟩
  | .pos e => by obtain ⟨_, h⟩ := writes_exists e; exact ⟨_, .pos h⟩
  | .not e => by obtain ⟨_, h⟩ := writes_exists e; exact ⟨_, .not h⟩
  | .fn _ e => by obtain ⟨_, h⟩ := writes_exists e; exact ⟨_, .fn h⟩
  | .bin o a b => by
      obtain ⟨ta, ha⟩ := writes_exists a
      obtain ⟨tb, hb⟩ := writes_exists b
      by_cases ho : o = .pow
      · subst ho
        exact ⟨_, .paren (.pow (by omega) ha (writes_up hb (by omega)))⟩
      · have hp : 2 ≤ prec o ∧ prec o ≤ 6 := by cases o <;> simp [prec] at ho ⊢
        exact ⟨_, .paren (.bin (p := prec o - 1) (by omega) (by omega) (by omega)
          (writes_up ha (by omega)) (writes_up hb (by omega)))⟩

theorem writesArgs_exists : ∀ a : Args, ∃ ts, WritesArgs a ts
  | .one e => by
      obtain ⟨ts, h⟩ := writes_exists e
      exact ⟨_, .one (writes_up h (by omega))⟩
  | .more e a => by
      obtain ⟨ts, h⟩ := writes_exists e
      obtain ⟨ta, ha⟩ := writesArgs_exists a
      exact ⟨_, .more (writes_up h (by omega)) ha⟩
end

end Verif.Pbasic
