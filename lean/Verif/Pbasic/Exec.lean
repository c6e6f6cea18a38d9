import Verif.Pbasic.Skip
import Verif.Pbasic.Lines

/-!
# Lemmas for structured programs: the interpreter does what the program says
-/

namespace Verif.Pbasic

variable {A : Arith} {prog : List Line}

/-! ## Assignments, `DIM` and `PUNCH` -/

theorem cmdlet_of {m : M} {v : V} {k : Nat} {e : Ex} {te rest : List Tok} {x : Val} {σ' : Env}
    (hl : lvalue A m.tok m.env = .ok ((v, k), .op .eq :: (te ++ rest), m.env))
    (hw : Writes 6 e te) (hd : Declared m.env e) (hv : value A m.env e = .ok x)
    (hp : put m.env v k x σ') (hr : Ends rest) :
    cmdlet A m = .ok ({ m with tok := rest, env := σ' }, .plain) := by
  unfold cmdlet
  rw [hl]
  simp only [Res.bind_ok, require, if_true]
  cases x with
  | num q =>
    obtain ⟨h1, rfl⟩ := put_num hp
    rw [h1, realexpr_of hw hd hr hv]
    rfl
  | str t =>
    obtain ⟨h1, rfl⟩ := put_str hp
    rw [h1, strexpr_of hw hd hr hv]
    rfl

theorem dims_length {σ : Env} {a : Args} {ds : List Nat} (h : Dims A σ a ds) :
    1 ≤ ds.length ∧ 1 ≤ ds.prod := by
  induction h with
  | one => simp
  | more _ _ _ _ ih =>
    refine ⟨by simp, ?_⟩
    rw [List.prod_cons]
    exact Nat.mul_pos (by omega) ih.2

theorem dimList_of {σ : Env} {a : Args} {ds : List Nat} (h : Dims A σ a ds) :
    ∀ {ta : List Tok} (rest : List Tok) {f : Nat} {ds0 : List Nat} {j : Nat}, WritesArgs a ta →
      ds.length ≤ f → ds0.length + ds.length ≤ 4 → j * ds.prod < 2 ^ 61 →
      dimList A f ds0 j (ta ++ rest) σ = .ok (ds0 ++ ds, rest, σ) := by
  induction h with
  | one hd hv hj =>
    rename_i e q z
    intro ta rest f ds0 j hw hf h4 hm
    cases hw with
    | one hw =>
      rename_i te
      cases f with
      | zero => simp at hf
      | succ f =>
        unfold dimList
        rw [List.append_assoc, List.singleton_append, intexpr_of hw hd (ends_rp rest) hv hj]
        simp only [Res.bind_ok]
        rw [if_neg (by omega), if_neg (by simp at h4; omega)]
        have e1 : ((z : Int) + 1).toNat = z + 1 := by omega
        rw [e1, if_neg (by simp at hm; omega)]
  | more hd hv hj hds ih =>
    rename_i e a q z ds
    intro ta rest f ds0 j hw hf h4 hm
    cases hw with
    | more hw hwa =>
      rename_i te ta
      cases f with
      | zero => simp at hf
      | succ f =>
        unfold dimList
        rw [List.append_assoc, List.cons_append,
          intexpr_of hw hd (ends_sep (Or.inl rfl) (ta ++ rest)) hv hj]
        simp only [Res.bind_ok]
        have hl := dims_length hds
        simp only [List.length_cons] at hf h4
        rw [if_neg (by omega), if_neg (by omega)]
        have e1 : ((z : Int) + 1).toNat = z + 1 := by omega
        rw [List.prod_cons, ← Nat.mul_assoc] at hm
        have : j * (z + 1) ≤ j * (z + 1) * ds.prod := Nat.le_mul_of_pos_right _ hl.2
        rw [e1, if_neg (by omega)]
        simp only [require, if_true, Res.bind_ok]
        have hl4 : (ds0 ++ [z + 1]).length + ds.length ≤ 4 := by
          simp only [List.length_append, List.length_cons, List.length_nil]; omega
        rw [ih rest hwa (by omega) hl4 hm]
        simp

theorem cmddim_of {m : M} {v : V} {a : Args} {ta rest : List Tok} {ds : List Nat} {σ' : Env} {f : Nat}
    (ht : m.tok = .var v :: .lp :: (ta ++ rest)) (hw : WritesArgs a ta) (h0 : (m.env v).dims = [])
    (hd : Dims A m.env a ds) (h4 : ds.length ≤ 4) (hm : ds.prod < 2 ^ 61)
    (hv : σ' v = ⟨ds, fun _ => 0, fun _ => []⟩) (ho : ∀ w, w ≠ v → σ' w = m.env w)
    (hr : iseos rest = true) :
    cmddim A (f + 1) m = .ok ({ m with tok := rest, env := σ' }, .plain) := by
  unfold cmddim
  rw [ht]
  dsimp only
  rw [if_neg (by simp [h0])]
  simp only [require, if_true, Res.bind_ok]
  rw [dimList_of hd rest hw (by omega) (by simpa using h4) (by simpa using hm)]
  simp only [Res.bind_ok, List.nil_append, hr, if_true]
  have : m.env.alloc v ds = σ' := by
    funext w
    unfold Env.alloc
    by_cases hw : w = v
    · rw [if_pos hw, hw, hv]
    · rw [if_neg hw, ho w hw]
  rw [this]

theorem cmdpunch_eos {f : Nat} {m : M} (h : iseos m.tok = true) :
    cmdpunch A (f + 1) m = .ok (m, .plain) := by
  unfold cmdpunch; rw [if_pos h]

theorem cmdpunch_sep {f : Nat} {m : M} {t : Tok} {r : List Tok} (ht : t = .comma ∨ t = .semi)
    (h : m.tok = t :: r) : cmdpunch A (f + 1) m = cmdpunch A f { m with tok := r } := by
  conv_lhs => unfold cmdpunch
  rw [h]
  rcases ht with rfl | rfl <;> simp [iseos]

theorem cmdpunch_expr {f : Nat} {m : M} {e : Ex} {te rest : List Tok} {x : Val} (hw : Writes 6 e te)
    (hd : Declared m.env e) (hv : value A m.env e = .ok x) (hr : Ends rest)
    (h : m.tok = te ++ rest) :
    cmdpunch A (f + 1) m = cmdpunch A f { m with tok := rest, outp := m.outp ++ [x] } := by
  have he := expr_of hw hd hr hv
  conv_lhs => unfold cmdpunch
  obtain ⟨t, r, rfl, hb⟩ := writes_head hw
  rw [h]
  have h1 : iseos (t :: r ++ rest) = false := by cases t <;> first | rfl | cases hb
  rw [if_neg (by rw [h1]; simp)]
  have h2 : t ≠ .comma ∧ t ≠ .semi := by constructor <;> (rintro rfl; cases hb)
  split
  · rename_i e; simp only [List.cons_append, List.cons.injEq] at e; exact absurd e.1 h2.2
  · rename_i e; simp only [List.cons_append, List.cons.injEq] at e; exact absurd e.1 h2.1
  · rw [he]; rfl

theorem cmdpunch_of {es : List Ex} {ts : List Tok} (h : WritesItems es ts) :
    ∀ {m : M} {rest : List Tok} {vs : List Val} {f : Nat}, Values A m.env es vs →
      m.tok = ts ++ rest → iseos rest = true → ts.length + 1 ≤ f →
      cmdpunch A f m = .ok ({ m with tok := rest, outp := m.outp ++ vs }, .plain) := by
  induction h with
  | nil =>
    intro m rest vs f hv ht hr hf
    obtain ⟨f, rfl⟩ : ∃ g, f = g + 1 := ⟨f - 1, by omega⟩
    cases hv
    rw [List.nil_append] at ht
    rw [cmdpunch_eos (by rw [ht]; exact hr)]
    rw [← ht]; simp
  | sep ht _ ih =>
    intro m rest vs f hv hm hr hf
    obtain ⟨f, rfl⟩ : ∃ g, f = g + 1 := ⟨f - 1, by omega⟩
    rw [cmdpunch_sep ht hm]
    exact ih (m := { m with tok := _ }) hv rfl hr (by simp only [List.length_cons] at hf; omega)
  | final he =>
    intro m rest vs f hv ht hr hf
    obtain ⟨t, r, rfl, hb⟩ := writes_head he
    obtain ⟨f, rfl⟩ : ∃ g, f = g + 2 := ⟨f - 2, by simp only [List.length_cons] at hf; omega⟩
    cases hv with
    | cons hd h hs =>
      cases hs
      rw [cmdpunch_expr he hd h (ends_eos hr) ht, cmdpunch_eos hr]
  | item ht he _ ih =>
    rename_i e es te ts t _
    intro m rest vs f hv hm hr hf
    obtain ⟨u, r, rfl, hb⟩ := writes_head he
    obtain ⟨f, rfl⟩ : ∃ g, f = g + 2 := ⟨f - 2, by
      simp only [List.length_append, List.length_cons] at hf; omega⟩
    cases hv with
    | cons hd h hs =>
      rename_i x vs
      have hm' : m.tok = u :: r ++ (t :: (ts ++ rest)) := by rw [hm]; simp
      rw [cmdpunch_expr he hd h (ends_sep ht _) hm', cmdpunch_sep ht rfl]
      have := ih (m := { m with tok := ts ++ rest, outp := m.outp ++ [x] }) (f := f) hs rfl hr
        (by simp only [List.length_append, List.length_cons] at hf; omega)
      rw [List.append_assoc] at this
      exact this

/-! ## What is to be shown -/

/-- The subroutines are found. -/
def SubsOk (prog : List Line) (sub : Nat → Option Blk) : Prop :=
  ∀ n b, sub n = some b → (n : Int) < 2 ^ 63 ∧ ∃ ls num k,
    findline n prog = some (ls ++ ⟨num, [.kw .kreturn]⟩ :: k) ∧ WritesB b ls

theorem subsOk_of {sub : Nat → Option Blk} (h : HasSubs prog sub) : SubsOk prog sub := by
  intro n b hn
  obtain ⟨h1, pre, ls, num, k, rfl, h2, ⟨l, r, h3, h4⟩, h5⟩ := h n b hn
  refine ⟨h1, ls, num, k, ?_, h5⟩
  rw [h3]
  exact findline_split (fun x hx => by have := h2 x hx; omega) (by omega)

/-- What the machine does for each part of a program. -/
def Good (A : Arith) (prog : List Line) : Code → St → St → Prop
  | .s x, s, s' => ∀ {ts rest : List Tok} {y : Line} {ls : List Line} {L : List Frame}
      {d : List Line × List Tok}, WritesS x ts → iseos rest = true →
      Reach A prog (cfg (y :: ls) (ts ++ rest) s L d) (after y ls rest s' L d)
  | .l l, s, s' => ∀ {ts rest : List Tok} {y : Line} {ls : List Line} {L : List Frame}
      {d : List Line × List Tok}, WritesLn l ts →
      (rest = [] ∨ closed l ∧ ∃ r, rest = .kw .kelse :: r) →
      Reach A prog (cfg (y :: ls) (ts ++ rest) s L d) (top ls s' L d)
  | .b b, s, s' => ∀ {ls k : List Line} {L : List Frame} {d : List Line × List Tok},
      WritesB b ls → Reach A prog (top (ls ++ k) s L d) (top k s' L d)
  | .iter v limit step body, s, s' =>
      (¬ Inside step limit ((s.env v).numCell 0) → s' = s) ∧
      (Inside step limit ((s.env v).numCell 0) → v.isStr = false →
        ∀ {lb k : List Line} {y : Line} {n : Nat} {L : List Frame} {d : List Line × List Tok},
        WritesB body lb →
        Reach A prog (top (lb ++ ⟨n, [.kw .knext, .var v]⟩ :: k) s
            (.forF (y :: (lb ++ ⟨n, [.kw .knext, .var v]⟩ :: k)) [] v limit step :: L) d)
          (top k s' L d))
  | .wloop c body, s, s' => ∃ q, Declared s.env c ∧ value A s.env c = .ok (.num q) ∧
      (q = 0 → s' = s) ∧
      (q ≠ 0 → ∀ {lb k : List Line} {y : Line} {n : Nat} {tc : List Tok} {L : List Frame}
        {d : List Line × List Tok}, Writes 6 c tc → WritesB body lb →
        Reach A prog (top (lb ++ ⟨n, [.kw .kwend]⟩ :: k) s
            (.whileF (y :: (lb ++ ⟨n, [.kw .kwend]⟩ :: k)) tc :: L) d)
          (top k s' L d))

theorem inside_iff {s l x : ℚ} : ¬ ((0 ≤ s ∧ l < x) ∨ (s ≤ 0 ∧ x < l)) ↔ Inside s l x := by
  unfold Inside
  constructor
  · intro h
    refine ⟨fun hs => ?_, fun hs => ?_, fun hs => ?_⟩
    · by_contra hc; exact h (Or.inl ⟨hs.le, not_le.mp hc⟩)
    · by_contra hc; exact h (Or.inr ⟨hs.le, not_le.mp hc⟩)
    · rcases lt_trichotomy x l with hc | hc | hc
      · exact (h (Or.inr ⟨hs.le, hc⟩)).elim
      · exact hc
      · exact (h (Or.inl ⟨hs.ge, hc⟩)).elim
  · rintro ⟨h1, h2, h3⟩ (⟨hs, hc⟩ | ⟨hs, hc⟩)
    · rcases hs.lt_or_eq with hs | hs
      · exact absurd (h1 hs) (not_le.mpr hc)
      · exact absurd (h3 hs.symm) hc.ne'
    · rcases hs.lt_or_eq with hs | hs
      · exact absurd (h2 hs) (not_le.mpr hc)
      · exact absurd (h3 hs) hc.ne

theorem inside_iff' {s l x : ℚ} : ((s < 0 ∨ x ≤ l) ∧ (0 < s ∨ l ≤ x)) ↔ Inside s l x := by
  rw [← inside_iff]
  constructor
  · rintro ⟨h1, h2⟩ (⟨hs, hc⟩ | ⟨hs, hc⟩)
    · rcases h1 with h1 | h1
      · exact absurd h1 (not_lt.mpr hs)
      · exact absurd h1 (not_le.mpr hc)
    · rcases h2 with h2 | h2
      · exact absurd h2 (not_lt.mpr hs)
      · exact absurd h2 (not_le.mpr hc)
  · intro h
    constructor
    · by_contra hc
      rw [not_or, not_lt, not_le] at hc
      exact h (Or.inl hc)
    · by_contra hc
      rw [not_or, not_lt, not_le] at hc
      exact h (Or.inr hc)

/-! ## The cases -/

theorem good_let {sub : Nat → Option Blk} {x : Simple} {s s' : St}
    (hr : Runs A sub (.s x) s s') (hx : ∀ n, x ≠ .gosub n) : Good A prog (.s x) s s' := by
  intro ts rest y ls L d hw hrest
  cases hr with
  | letv h0 hd h hp =>
    cases hw with
    | letv hw =>
      refine Reach.step (p := (cfg (y :: ls) rest ⟨_, s.outp⟩ L d, .plain)) (by simp) ?_
        (finish_after hrest)
      show cmdlet A _ = _
      rw [cmdlet_of (k := 0) (lvalue_var h0 (by intro r hr; cases hr)) hw hd h hp (ends_eos hrest)]
      rfl
    | letv' hw =>
      refine Reach.step (p := (cfg (y :: ls) rest ⟨_, s.outp⟩ L d, .plain)) (by simp) ?_
        (finish_after hrest)
      show cmdlet A _ = _
      rw [cmdlet_of (k := 0) (lvalue_var h0 (by intro r hr; cases hr)) hw hd h hp (ends_eos hrest)]
      rfl
  | lete hv hk hd h hp =>
    cases hw with
    | lete ha hw =>
      rename_i v a e k x σ' ta te
      refine Reach.step (p := (cfg (y :: ls) rest ⟨σ', s.outp⟩ L d, .plain)) (by simp) ?_
        (finish_after hrest)
      show cmdlet A _ = _
      have : lvalue A (.var v :: .lp :: (ta ++ (.op .eq :: (te ++ rest)))) s.env
          = .ok ((v, k), .op .eq :: (te ++ rest), s.env) := lvalue_elem ha hv hk
      rw [cmdlet_of (k := k) (te := te) (rest := rest) ?_ hw hd h hp (ends_eos hrest)]
      · rfl
      · have e : ta ++ .op .eq :: (te ++ rest) = (ta ++ .op .eq :: te) ++ rest := by simp
        rw [e] at this
        exact this
  | dim h0 hd h4 hm hv ho =>
    cases hw with
    | dim ha =>
      rename_i v a ds σ' ta
      refine Reach.step (p := (cfg (y :: ls) rest ⟨σ', s.outp⟩ L d, .plain)) (by simp) ?_
        (finish_after hrest)
      show cmddim A _ _ = _
      rw [cmddim_of (ta := ta) (rest := rest) rfl ha h0 hd h4 hm hv ho hrest]
      rfl
  | punch h =>
    cases hw with
    | punch hw =>
      rename_i es vs ts
      refine Reach.step (p := (cfg (y :: ls) rest ⟨s.env, s.outp ++ vs⟩ L d, .plain)) (by simp) ?_
        (finish_after hrest)
      show cmdpunch A _ _ = _
      rw [cmdpunch_of hw (rest := rest) h rfl hrest (by
        show ts.length + 1 ≤ (ts ++ rest).length + 1
        simp)]
      rfl
  | gosub => exact absurd rfl (hx _)

theorem good_gosub {sub : Nat → Option Blk} (hs : SubsOk prog sub) {n : Nat} {b : Blk} {s s' : St}
    (hn : sub n = some b) (ih : Good A prog (.b b) s s') : Good A prog (.s (.gosub n)) s s' := by
  intro ts rest y ls L d hw hrest
  cases hw
  obtain ⟨hlt, lb, num, k, hf, hb⟩ := hs n b hn
  refine Reach.then (Reach.step
    (p := (cfg (lb ++ ⟨num, [.kw .kreturn]⟩ :: k) [] s (.gosubF (y :: ls) (.num n :: rest) :: L) d,
      .goto)) (by simp) ?_ (m' := top (lb ++ ⟨num, [.kw .kreturn]⟩ :: k) s
        (.gosubF (y :: ls) (.num n :: rest) :: L) d) ?_) (Reach.then (ih hb) ?_)
  · show cmdgosub A prog _ = _
    unfold cmdgosub cmdgoto
    have : intexpr A (.num n :: rest) s.env = .ok ((n : Int), rest, s.env) :=
      intexpr_num hlt (ends_eos hrest)
    show (intexpr A (.num n :: rest) s.env).bind _ = _
    rw [this]
    simp only [Res.bind_ok, hf]
    rfl
  · rfl
  · refine Reach.step (p := (cfg (y :: ls) rest s' L d, .plain)) (by simp) ?_ (finish_after hrest)
    show cmdreturn _ = _
    unfold cmdreturn
    have e : skiptoeos (.num n :: rest) = rest := by
      unfold skiptoeos
      rw [if_neg (by simp [iseos])]
      cases rest with
      | nil => rfl
      | cons t r => unfold skiptoeos; rw [if_pos hrest]
    show (popGosub (.gosubF (y :: ls) (.num n :: rest) :: L)).bind _ = _
    unfold popGosub
    simp only [Res.bind_ok, e]
    rfl

theorem else_line {y : Line} {ls : List Line} {r : List Tok} {s : St} {L : List Frame}
    {d : List Line × List Tok} :
    Reach A prog (cfg (y :: ls) (.kw .kelse :: r) s L d) (top ls s L d) :=
  Reach.step (p := (cfg (y :: ls) [] s L d, .plain)) (by simp) rfl (finish_after rfl)

theorem after_line {y : Line} {ls : List Line} {rest : List Tok} {s : St} {L : List Frame}
    {d : List Line × List Tok} (h : rest = [] ∨ ∃ r, rest = .kw .kelse :: r) :
    Reach A prog (after y ls rest s L d) (top ls s L d) := by
  rcases h with rfl | ⟨r, rfl⟩
  · exact Reach.refl
  · exact else_line

theorem eos_line {rest : List Tok} (h : rest = [] ∨ ∃ r, rest = .kw .kelse :: r) :
    iseos rest = true := by
  rcases h with rfl | ⟨r, rfl⟩ <;> rfl

/-- An `IF` whose condition holds. -/
theorem if_true_step {c : Ex} {tc rest : List Tok} {y : Line} {ls : List Line} {s : St}
    {L : List Frame} {d : List Line × List Tok} {q : ℚ} (hw : Writes 6 c tc)
    (hd : Declared s.env c) (hc : value A s.env c = .ok (.num q)) (hq : q ≠ 0)
    (hne : ∃ t r, rest = t :: r ∧ beginsStmt t = true) :
    Reach A prog (cfg (y :: ls) (.kw .kif :: (tc ++ .kw .kthen :: rest)) s L d)
      (cfg (y :: ls) rest s L d) := by
  obtain ⟨t, r, rfl, hb⟩ := hne
  refine Reach.step (p := (cfg (y :: ls) (t :: r) s L d, .els)) (by simp) ?_ rfl
  show cmdif A prog _ = _
  unfold cmdif
  show (realexpr A (tc ++ .kw .kthen :: (t :: r)) s.env).bind _ = _
  rw [realexpr_of hw hd (ends_kw _ _) hc]
  simp only [Res.bind_ok, require, if_true, if_neg hq]
  cases t <;> first | rfl | cases hb

/-- An `IF` whose condition does not hold. -/
theorem if_false_step {c : Ex} {tc rest r' : List Tok} {y : Line} {ls : List Line} {s : St}
    {L : List Frame} {d : List Line × List Tok} (hw : Writes 6 c tc)
    (hd : Declared s.env c) (hc : value A s.env c = .ok (.num 0))
    (hs : skipIf 0 rest = r') (hne : r' = [] ∨ ∃ t r, r' = t :: r ∧ beginsStmt t = true) :
    Reach A prog (cfg (y :: ls) (.kw .kif :: (tc ++ .kw .kthen :: rest)) s L d)
      (after y ls r' s L d) := by
  refine Reach.step (p := (cfg (y :: ls) r' s L d, .els)) (by simp) ?_ ?_
  · show cmdif A prog _ = _
    unfold cmdif
    show (realexpr A (tc ++ .kw .kthen :: rest) s.env).bind _ = _
    rw [realexpr_of hw hd (ends_kw _ _) hc]
    simp only [Res.bind_ok, require, if_true, hs]
    rcases hne with rfl | ⟨t, r, rfl, hb⟩
    · rfl
    · cases t <;> first | rfl | cases hb
  · rcases hne with rfl | ⟨t, r, rfl, hb⟩
    · rfl
    · rfl

theorem len_ne {y : Line} {ls : List Line} {t : List Tok} {s s' : St} {L L' : List Frame}
    {d d' : List Line × List Tok} : top ls s L d ≠ cfg (y :: ls) t s' L' d' := by
  intro h
  have : ls = y :: ls := congrArg M.ln h
  have := congrArg List.length this
  simp at this

theorem top_cons (y : Line) (ls : List Line) (s : St) (L : List Frame) (d : List Line × List Tok) :
    top (y :: ls) s L d = cfg (y :: ls) y.txt s L d := rfl

theorem put_dims {σ σ' : Env} {v : V} {k : Nat} {x : Val} (h : put σ v k x σ') :
    (σ' v).dims = (σ v).dims := h.2.1

/-- The beginning of a `FOR` loop. -/
theorem for_head {v : V} {a b : Ex} {st : Option Ex} {ta tb tst : List Tok} {s : St} {x limit step : ℚ}
    {σ1 : Env} {y : Line} {rest : List Line} {L : List Frame} {d : List Line × List Tok}
    (hwa : Writes 6 a ta) (hwb : Writes 6 b tb) (hws : WritesStep st tst)
    (h0 : (s.env v).dims = []) (hda : Declared s.env a)
    (ha : value A s.env a = .ok (.num x)) (hp : put s.env v 0 (.num x) σ1)
    (hdb : Declared σ1 b) (hb : value A σ1 b = .ok (.num limit))
    (hst : StepIs A σ1 st step) :
    cmdfor A (cfg (y :: rest) (.var v :: .op .eq :: (ta ++ .kw .kto :: (tb ++ tst))) s L d)
      = if (0 ≤ step ∧ limit < (σ1 v).numCell 0) ∨ (step ≤ 0 ∧ (σ1 v).numCell 0 < limit) then
          (skipFor v 0 0 (y :: rest) []).bind fun q =>
            .ok (cfg q.1 (skiptoeos q.2) ⟨σ1, s.outp⟩ L d, .plain)
        else .ok (cfg (y :: rest) [] ⟨σ1, s.outp⟩ (.forF (y :: rest) [] v limit step :: L) d,
          .plain) := by
  have hd1 := put_dims hp
  obtain ⟨hstr, hσ⟩ := put_num hp
  unfold cmdfor
  show (lvalue A (.var v :: .op .eq :: (ta ++ .kw .kto :: (tb ++ tst))) s.env).bind _ = _
  rw [lvalue_var h0 (by simp)]
  simp only [Res.bind_ok, hstr, h0, require, if_true, ne_eq, not_true_eq_false, if_false,
    Bool.false_eq_true]
  rw [realexpr_of hwa hda (ends_kw _ _) ha]
  simp only [Res.bind_ok, if_true, ← hσ]
  cases hws with
  | none =>
    have hst : step = 1 := hst
    rw [realexpr_of hwb hdb ends_nil hb]
    subst hst
    simp only [Res.bind_ok, hd1, h0, not_true_eq_false, if_false]
    rfl
  | some hw =>
    obtain ⟨hde, hve⟩ := hst
    rw [realexpr_of hwb hdb (ends_kw _ _) hb]
    simp only [Res.bind_ok]
    rename_i te
    have := realexpr_of hw hde ends_nil hve
    rw [List.append_nil] at this
    rw [this]
    simp only [Res.bind_ok, hd1, h0, not_true_eq_false, if_false]
    rfl

theorem good_loop {v : V} {a b : Ex} {st : Option Ex} {body k : Blk} {s s1 s' : St} {x limit step : ℚ}
    {σ1 : Env} (h0 : (s.env v).dims = []) (hda : Declared s.env a)
    (ha : value A s.env a = .ok (.num x)) (hp : put s.env v 0 (.num x) σ1)
    (hdb : Declared σ1 b) (hb : value A σ1 b = .ok (.num limit))
    (hst : StepIs A σ1 st step)
    (ih : Good A prog (.iter v limit step body) ⟨σ1, s.outp⟩ s1) (ihk : Good A prog (.b k) s1 s') :
    Good A prog (.b (.loop v a b st body k)) s s' := by
  intro ls kk L d hw
  cases hw with
  | loop hwa hwb hws hbody hk =>
    rename_i n n' ta tb tst lb ls
    rw [List.cons_append, List.append_assoc, List.cons_append]
    refine Reach.then ?_ (ihk hk)
    have hh := for_head (y := ⟨n, .kw .kfor :: .var v :: .op .eq :: (ta ++ .kw .kto :: (tb ++ tst))⟩)
      (rest := lb ++ ⟨n', [.kw .knext, .var v]⟩ :: (ls ++ kk)) (L := L) (d := d)
      hwa hwb hws h0 hda ha hp hdb hb hst
    by_cases hin : Inside step limit ((σ1 v).numCell 0)
    · rw [if_neg (inside_iff.mpr hin)] at hh
      exact Reach.then (Reach.step (by simp) hh (finish_after rfl)) (ih.2 hin (put_num hp).1 hbody)
    · rw [if_pos (not_not.mp fun h => hin (inside_iff.mp h)), skipFor_loop hbody] at hh
      rw [ih.1 hin]
      exact Reach.step (by simp) hh (finish_after rfl)

theorem good_iter {v : V} {limit step : ℚ} {body : Blk} {s s1 s' : St} {σ2 : Env}
    (h : Inside step limit ((s.env v).numCell 0)) (ihb : Good A prog (.b body) s s1)
    (h0 : (s1.env v).dims = [])
    (hp : put s1.env v 0 (.num ((s1.env v).numCell 0 + step)) σ2)
    (ih : Good A prog (.iter v limit step body) ⟨σ2, s1.outp⟩ s') :
    Good A prog (.iter v limit step body) s s' := by
  refine ⟨fun hn => absurd h hn, fun _ hstr lb k y n L d hb => ?_⟩
  refine Reach.then (ihb hb) ?_
  obtain ⟨-, hσ⟩ := put_num hp
  have hc : cmdnext A (cfg (⟨n, [.kw .knext, .var v]⟩ :: k) [.var v] s1
      (.forF (y :: (lb ++ ⟨n, [.kw .knext, .var v]⟩ :: k)) [] v limit step :: L) d)
      = if (step < 0 ∨ (σ2 v).numCell 0 ≤ limit) ∧ (0 < step ∨ limit ≤ (σ2 v).numCell 0) then
          .ok (cfg (y :: (lb ++ ⟨n, [.kw .knext, .var v]⟩ :: k)) [] ⟨σ2, s1.outp⟩
            (.forF (y :: (lb ++ ⟨n, [.kw .knext, .var v]⟩ :: k)) [] v limit step :: L) d, .plain)
        else .ok (cfg (⟨n, [.kw .knext, .var v]⟩ :: k) [] ⟨σ2, s1.outp⟩ L d, .plain) := by
    unfold cmdnext
    have e1 : (cfg (⟨n, [.kw .knext, .var v]⟩ :: k) [.var v] s1
      (.forF (y :: (lb ++ ⟨n, [.kw .knext, .var v]⟩ :: k)) [] v limit step :: L) d).tok
        = [.var v] := rfl
    rw [e1, if_neg (by simp [iseos])]
    have e2 : lvalue A [.var v] s1.env = .ok ((v, 0), [], s1.env) := lvalue_var h0 (by simp)
    show ((lvalue A [.var v] s1.env).bind _).bind _ = _
    rw [e2]
    simp only [Res.bind_ok]
    show (popFor (some v) (.forF (y :: (lb ++ ⟨n, [.kw .knext, .var v]⟩ :: k)) [] v limit step
      :: L)).bind _ = _
    unfold popFor
    simp only [or_true, if_true, Res.bind_ok, h0, ne_eq, not_true_eq_false, if_false, ← hσ]
    rfl
  by_cases hin : Inside step limit ((σ2 v).numCell 0)
  · rw [if_pos (inside_iff'.mpr hin)] at hc
    exact Reach.then (Reach.step (by simp) hc (finish_after rfl)) (ih.2 hin hstr hb)
  · rw [if_neg (fun h => hin (inside_iff'.mp h))] at hc
    rw [ih.1 hin]
    exact Reach.step (by simp) hc (finish_after rfl)

theorem expr_not_eos {c : Ex} {tc : List Tok} (hw : Writes 6 c tc) : iseos tc = false := by
  obtain ⟨t, r, rfl, hb⟩ := writes_head hw
  cases t <;> first | rfl | cases hb

theorem good_whil {c : Ex} {body k : Blk} {s s1 s' : St} (ih : Good A prog (.wloop c body) s s1)
    (ihk : Good A prog (.b k) s1 s') : Good A prog (.b (.whil c body k)) s s' := by
  intro ls kk L d hw
  cases hw with
  | whil hwc hbody hk =>
    rename_i n n' tc lb ls
    rw [List.cons_append, List.append_assoc, List.cons_append]
    refine Reach.then ?_ (ihk hk)
    obtain ⟨q, hd, hv, h1, h2⟩ := ih
    have hre := realexpr_of hwc hd ends_nil hv
    rw [List.append_nil] at hre
    have hh : cmdwhile A (cfg (⟨n, .kw .kwhile :: tc⟩ :: (lb ++ ⟨n', [.kw .kwend]⟩ :: (ls ++ kk)))
        tc s L d) = if q ≠ 0 then
          .ok (cfg (⟨n, .kw .kwhile :: tc⟩ :: (lb ++ ⟨n', [.kw .kwend]⟩ :: (ls ++ kk))) [] s
            (.whileF (⟨n, .kw .kwhile :: tc⟩ :: (lb ++ ⟨n', [.kw .kwend]⟩ :: (ls ++ kk))) tc :: L) d,
            .plain)
        else .ok (cfg (⟨n', [.kw .kwend]⟩ :: (ls ++ kk)) [] s L d, .plain) := by
      unfold cmdwhile
      have e1 : (cfg (⟨n, .kw .kwhile :: tc⟩ :: (lb ++ ⟨n', [.kw .kwend]⟩ :: (ls ++ kk)))
        tc s L d).tok = tc := rfl
      rw [e1, if_neg (by simp [expr_not_eos hwc])]
      show (realexpr A tc s.env).bind _ = _
      rw [hre]
      simp only [Res.bind_ok]
      by_cases hq : q ≠ 0
      · rw [if_pos hq, if_pos hq]; rfl
      · rw [if_neg hq, if_neg hq]
        show (skiploop .kwhile .kwend 0 (⟨n, .kw .kwhile :: tc⟩ ::
          (lb ++ ⟨n', [.kw .kwend]⟩ :: (ls ++ kk))) []).bind _ = _
        rw [skiploop_loop hbody]
        rfl
    by_cases hq : q = 0
    · rw [if_neg (by simpa using hq)] at hh
      rw [h1 hq]
      exact Reach.step (by simp) hh (finish_after rfl)
    · rw [if_pos hq] at hh
      exact Reach.then (Reach.step (by simp) hh (finish_after rfl)) (h2 hq hwc hbody)

theorem good_wmore {c : Ex} {body : Blk} {s s1 s' : St} {q : ℚ} (hd : Declared s.env c)
    (hc : value A s.env c = .ok (.num q)) (hq : q ≠ 0) (ihb : Good A prog (.b body) s s1)
    (ih : Good A prog (.wloop c body) s1 s') : Good A prog (.wloop c body) s s' := by
  refine ⟨q, hd, hc, fun h => absurd h hq, fun _ lb k y n tc L d hw hb => ?_⟩
  refine Reach.then (ihb hb) ?_
  obtain ⟨q', hd', hv', h1, h2⟩ := ih
  have hre := realexpr_of hw hd' ends_nil hv'
  rw [List.append_nil] at hre
  have hh : cmdwend A (cfg (⟨n, [.kw .kwend]⟩ :: k) [] s1
      (.whileF (y :: (lb ++ ⟨n, [.kw .kwend]⟩ :: k)) tc :: L) d)
      = if q' = 0 then .ok (cfg (⟨n, [.kw .kwend]⟩ :: k) [] s1 L d, .plain)
        else .ok (cfg (y :: (lb ++ ⟨n, [.kw .kwend]⟩ :: k)) [] s1
          (.whileF (y :: (lb ++ ⟨n, [.kw .kwend]⟩ :: k)) tc :: L) d, .plain) := by
    unfold cmdwend
    show (popWhile (.whileF (y :: (lb ++ ⟨n, [.kw .kwend]⟩ :: k)) tc :: L)).bind _ = _
    unfold popWhile
    simp only [Res.bind_ok]
    have e1 : (cfg (⟨n, [.kw .kwend]⟩ :: k) [] s1
      (.whileF (y :: (lb ++ ⟨n, [.kw .kwend]⟩ :: k)) tc :: L) d).tok = [] := rfl
    rw [e1, if_pos (by rfl)]
    simp only [Res.bind_ok, if_true]
    rw [if_neg (by simp [expr_not_eos hw])]
    show (realexpr A tc s1.env).bind _ = _
    rw [hre]
    simp only [Res.bind_ok]
    by_cases hz : q' = 0
    · rw [if_pos hz, if_pos hz]; rfl
    · rw [if_neg hz, if_neg hz]; rfl
  by_cases hz : q' = 0
  · rw [if_pos hz] at hh
    rw [h1 hz]
    exact Reach.step (by simp) hh (finish_after rfl)
  · rw [if_neg hz] at hh
    exact Reach.then (Reach.step (by simp) hh (finish_after rfl)) (h2 hz hw hb)

/-! ## All of it -/

theorem runs_good {sub : Nat → Option Blk} (hs : SubsOk prog sub) {c : Code} {s s' : St}
    (h : Runs A sub c s s') : Good A prog c s s' := by
  induction h with
  | letv h0 hd h hp => exact good_let (sub := sub) (.letv h0 hd h hp) (by simp)
  | lete hv hk hd h hp => exact good_let (sub := sub) (.lete hv hk hd h hp) (by simp)
  | dim h0 hd h4 hm hv ho => exact good_let (sub := sub) (.dim h0 hd h4 hm hv ho) (by simp)
  | punch h => exact good_let (sub := sub) (.punch h) (by simp)
  | gosub hn _ ih => exact good_gosub hs hn ih
  | last _ ih =>
    intro ts rest y ls L d hw hrest
    cases hw with
    | last hw =>
      have : rest = [] ∨ ∃ r, rest = .kw .kelse :: r := hrest.imp id And.right
      exact Reach.then (ih hw (eos_line this)) (after_line this)
  | seq _ _ ih ihl =>
    intro ts rest y ls L d hw hrest
    cases hw with
    | seq hw hwl =>
      rename_i ts tl
      rw [List.append_assoc, List.cons_append]
      refine Reach.then (ih hw rfl) ?_
      unfold after
      rw [if_neg (by simp)]
      exact Reach.colon len_ne (ihl hwl hrest)
  | thenElse hd hc hq _ ih =>
    intro ts rest y ls L d hw hrest
    cases hw with
    | ifte hwc hcl ha hb =>
      rename_i tc ta tb
      have e : .kw .kif :: (tc ++ .kw .kthen :: (ta ++ .kw .kelse :: tb)) ++ rest
          = .kw .kif :: (tc ++ .kw .kthen :: (ta ++ .kw .kelse :: (tb ++ rest))) := by simp
      rw [e]
      refine Reach.then (if_true_step hwc hd hc hq ?_) (ih ha (Or.inr ⟨hcl, _, rfl⟩))
      obtain ⟨t, r, e, hb⟩ := line_head ha
      exact ⟨t, r ++ _, by rw [e]; rfl, hb⟩
  | else_ hd hc _ ih =>
    intro ts rest y ls L d hw hrest
    cases hw with
    | ifte hwc hcl ha hb =>
      rename_i tc ta tb
      have e : .kw .kif :: (tc ++ .kw .kthen :: (ta ++ .kw .kelse :: tb)) ++ rest
          = .kw .kif :: (tc ++ .kw .kthen :: (ta ++ .kw .kelse :: (tb ++ rest))) := by simp
      rw [e]
      obtain ⟨j, -, h2, h3⟩ := skipIf_line ha (.kw .kelse :: (tb ++ rest)) (le_refl 0)
      rw [h2 hcl, skipIf_own] at h3
      obtain ⟨t, r, e, hb'⟩ := line_head hb
      refine Reach.then (if_false_step hwc hd hc h3 (Or.inr ⟨t, r ++ rest, by rw [e]; rfl, hb'⟩)) ?_
      unfold after
      rw [if_neg (by rw [e]; simp)]
      exact ih hb hrest
  | then_ hd hc hq _ ih =>
    intro ts rest y ls L d hw hrest
    cases hw with
    | ift hwc ha =>
      rename_i tc ta
      rcases hrest with rfl | ⟨hcl, -⟩
      · rw [List.append_nil]
        have := ih (y := y) (ls := ls) (L := L) (d := d) (rest := []) ha (Or.inl rfl)
        rw [List.append_nil] at this
        exact Reach.then (if_true_step hwc hd hc hq (line_head ha)) this
      · exact hcl.elim
  | skip hd hc =>
    intro ts rest y ls L d hw hrest
    cases hw with
    | ift hwc ha =>
      rename_i tc ta
      rcases hrest with rfl | ⟨hcl, -⟩
      · rw [List.append_nil]
        obtain ⟨j, -, -, h3⟩ := skipIf_line ha [] (le_refl 0)
        rw [List.append_nil, skipIf_nil] at h3
        exact if_false_step hwc hd hc h3 (Or.inl rfl)
      · exact hcl.elim
  | nil =>
    intro ls k L d hw
    cases hw
    exact Reach.refl
  | line _ _ ih ihk =>
    intro ls k L d hw
    cases hw with
    | line hw hk =>
      rename_i n ts ls
      have := ih (y := ⟨n, ts⟩) (ls := ls ++ k) (L := L) (d := d) (rest := []) hw (Or.inl rfl)
      rw [List.append_nil] at this
      exact Reach.then this (ihk hk)
  | loop h0 hda ha hp hdb hb hst _ _ ih ihk => exact good_loop h0 hda ha hp hdb hb hst ih ihk
  | iterEnd h => exact ⟨fun _ => rfl, fun hi => absurd hi h⟩
  | iterMore h _ h0 hp _ ihb ih => exact good_iter h ihb h0 hp ih
  | whil _ _ ih ihk => exact good_whil ih ihk
  | wEnd hd hc => exact ⟨0, hd, hc, fun _ => rfl, fun h => absurd rfl h⟩
  | wMore hd hc hq _ _ ihb ih => exact good_wmore hd hc hq ihb ih

end Verif.Pbasic
