import Verif.Pbasic.Fuel

/-!
# A written expression has the value of its tree
-/

namespace Verif.Pbasic

/-- The result of the parser with enough depth. -/
def Ev (A : Arith) (l : Nat) (ts : List Tok) (σ : Env) (R : Res (Val × List Tok × Env)) : Prop :=
  ∃ N, ∀ f, N ≤ f → ev A f l ts σ = R

/-- The result of the loop of a level with enough depth; level 0 has no loop. -/
def Lp (A : Arith) (l : Nat) (n : Val) (ts : List Tok) (σ : Env)
    (R : Res (Val × List Tok × Env)) : Prop :=
  if l = 0 then R = .ok (n, ts, σ) else ∃ N, ∀ f, N ≤ f → loop A f l n ts σ = R

/-- The result of the subscripts with enough depth. -/
def Sb (A : Arith) (ds : List Nat) (k : Nat) (ts : List Tok) (σ : Env)
    (R : Res (Nat × List Tok × Env)) : Prop :=
  ∃ N, ∀ f, N ≤ f → subscripts A f ds k ts σ = R

/-- The result of `findvar` with enough depth. -/
def Fv (A : Arith) (v : V) (ts : List Tok) (σ : Env) (R : Res (Nat × List Tok × Env)) : Prop :=
  ∃ N, ∀ f, N ≤ f → findvar A f v ts σ = R

/-- What may follow an expression written at level `l`: no parenthesis, and no
operator that the levels below `l` would take. -/
def Follow (l : Nat) (rest : List Tok) : Prop :=
  (∀ r, rest ≠ .lp :: r) ∧
  ∀ o r, rest = .op o :: r → l ≤ prec o ∧ (1 ≤ l → prec o ≠ 1)

/-- A result that continues with the loop of the level. -/
def Cont (A : Arith) (l : Nat) (rest : List Tok) (σ : Env) (x : Res Val)
    (R : Res (Val × List Tok × Env)) : Prop :=
  match x with
  | .ok v => Lp A l v rest σ R
  | .err => R = .err
  | .ub => R = .ub
  | .out => R = .out

theorem fuel_succ {N f : Nat} (h : N + 1 ≤ f) : ∃ g, f = g + 1 ∧ N ≤ g := ⟨f - 1, by omega, by omega⟩

theorem Lp.stop {A : Arith} {l : Nat} {n : Val} {ts : List Tok} {σ : Env} (hl : 1 ≤ l)
    (h : ∀ o r, ts = .op o :: r → prec o ≠ l) : Lp A l n ts σ (.ok (n, ts, σ)) := by
  unfold Lp
  rw [if_neg (by omega)]
  refine ⟨1, fun f hf => ?_⟩
  obtain ⟨g, rfl, -⟩ := fuel_succ hf
  unfold loop
  cases ts with
  | nil => rfl
  | cons t r =>
    cases t with
    | op o =>
      dsimp only
      rw [if_neg (by rw [level_prec]; exact h o r rfl)]
    | _ => rfl

theorem Ev.up {A : Arith} {l : Nat} {ts r : List Tok} {σ σ' : Env} {v : Val}
    {R : Res (Val × List Tok × Env)} (h : Ev A l ts σ (.ok (v, r, σ'))) (h2 : Lp A (l + 1) v r σ' R) :
    Ev A (l + 1) ts σ R := by
  obtain ⟨N, h⟩ := h
  unfold Lp at h2
  rw [if_neg (by omega)] at h2
  obtain ⟨N2, h2⟩ := h2
  refine ⟨max N N2 + 1, fun f hf => ?_⟩
  obtain ⟨g, rfl, hg⟩ := fuel_succ hf
  unfold ev
  rw [h g (by omega)]
  exact h2 g (by omega)

theorem Ev.up_bad {A : Arith} {l : Nat} {ts : List Tok} {σ : Env} {R : Res (Val × List Tok × Env)}
    (h : Ev A l ts σ R) (hb : ∀ p, R ≠ .ok p) : Ev A (l + 1) ts σ R := by
  obtain ⟨N, h⟩ := h
  refine ⟨N + 1, fun f hf => ?_⟩
  obtain ⟨g, rfl, hg⟩ := fuel_succ hf
  unfold ev
  rw [h g hg]
  cases R with
  | ok p => exact absurd rfl (hb p)
  | err => rfl
  | ub => rfl
  | out => rfl

/-- From a level to a higher one. -/
theorem Ev.lift {A : Arith} {l0 : Nat} {ts rest : List Tok} {σ : Env} {x : Res Val} :
    ∀ {l : Nat}, l0 ≤ l → Follow l rest →
      (∀ R, Cont A l0 rest σ x R → Ev A l0 ts σ R) →
      ∀ R, Cont A l rest σ x R → Ev A l ts σ R := by
  intro l hl
  induction l, hl using Nat.le_induction with
  | base => intro _ h; exact h
  | succ l hl ih =>
    intro hF h R hR
    have hF' : Follow l rest := ⟨hF.1, fun o r e => by
      have := hF.2 o r e
      exact ⟨by omega, fun _ => this.2 (by omega)⟩⟩
    have ih' := ih hF' h
    cases x with
    | ok v =>
      refine Ev.up (ih' (.ok (v, rest, σ)) ?_) hR
      show Lp A l v rest σ _
      by_cases h0 : l = 0
      · subst h0; unfold Lp; simp
      · exact Lp.stop (by omega) fun o r e => by have := hF.2 o r e; omega
    | err => cases hR; exact Ev.up_bad (ih' .err rfl) (by simp)
    | ub => cases hR; exact Ev.up_bad (ih' .ub rfl) (by simp)
    | out => cases hR; exact Ev.up_bad (ih' .out rfl) (by simp)

/-- A result that only remembers what follows. -/
def ContS (rest : List Tok) (σ : Env) (x : Res Nat) (R : Res (Nat × List Tok × Env)) : Prop :=
  R = x.bind fun k => .ok (k, rest, σ)

/-- What is shown for expressions. -/
def P (A : Arith) (l : Nat) (e : Ex) (ts : List Tok) : Prop :=
  ∀ σ, Declared σ e → ∀ rest, Follow l rest →
    ∀ R, Cont A l rest σ (value A σ e) R → Ev A l (ts ++ rest) σ R

/-- What is shown for subscripts. -/
def Q (A : Arith) (a : Args) (ts : List Tok) : Prop :=
  ∀ σ, DeclaredArgs σ a → ∀ ds k rest, ds.length = a.count →
    ∀ R, ContS rest σ (cellOf A σ ds k a) R → Sb A ds k (ts ++ rest) σ R

theorem Cont.zero {A : Arith} {rest : List Tok} {σ : Env} {x : Res Val}
    {R : Res (Val × List Tok × Env)} (h : Cont A 0 rest σ x R) :
    R = x.bind fun v => .ok (v, rest, σ) := by
  cases x with
  | ok v => unfold Cont Lp at h; simpa using h
  | err => exact h
  | ub => exact h
  | out => exact h

/-- What stands at level 0 stands at every level. -/
theorem P.of_zero {A : Arith} {l : Nat} {e : Ex} {ts : List Tok}
    (h : ∀ σ, Declared σ e → ∀ rest, Follow 0 rest →
      Ev A 0 (ts ++ rest) σ ((value A σ e).bind fun v => .ok (v, rest, σ))) : P A l e ts := by
  intro σ hd rest hF
  refine Ev.lift (l0 := 0) (Nat.zero_le _) hF ?_
  intro R hR
  rw [Cont.zero hR]
  exact h σ hd rest ⟨hF.1, fun o r e => ⟨Nat.zero_le _, fun h => absurd h (by omega)⟩⟩

theorem P.zero {A : Arith} {e : Ex} {ts : List Tok} (h : P A 0 e ts) {σ : Env} (hd : Declared σ e)
    {rest : List Tok} (hF : Follow 0 rest) :
    Ev A 0 (ts ++ rest) σ ((value A σ e).bind fun v => .ok (v, rest, σ)) := by
  refine h σ hd rest hF _ ?_
  cases value A σ e <;> simp [Cont, Lp]

/-- An expression that is followed by nothing that continues it. -/
theorem P.done {A : Arith} {l : Nat} {e : Ex} {ts : List Tok} (h : P A l e ts) {σ : Env}
    (hd : Declared σ e) {rest : List Tok} (hF : Follow l rest)
    (hs : ∀ o r, rest = .op o :: r → l < prec o) :
    Ev A l (ts ++ rest) σ ((value A σ e).bind fun v => .ok (v, rest, σ)) := by
  refine h σ hd rest hF _ ?_
  cases value A σ e with
  | ok v =>
    show Lp A l v rest σ _
    by_cases h0 : l = 0
    · subst h0; simp [Lp]
    · exact Lp.stop (by omega) fun o r e => by have := hs o r e; omega
  | err => rfl
  | ub => rfl
  | out => rfl

theorem ev_atom {A : Arith} {ts : List Tok} {σ : Env} {R : Res (Val × List Tok × Env)}
    (h : ∀ g, ev A (g + 1) 0 ts σ = R) : Ev A 0 ts σ R :=
  ⟨1, fun f hf => by obtain ⟨g, rfl, -⟩ := fuel_succ hf; exact h g⟩

theorem applyFn_not (A : Arith) (n : Val) : applyFn A .not n = (number n).bind fun x =>
    (nearest x).bind fun z => .ok (.num (-(z : ℚ) - 1)) := by
  unfold applyFn
  dsimp only
  rw [real_number]
  refine Res.bind_congr rfl ?_
  intro x _
  rw [roundLong_nearest]
  refine Res.bind_congr rfl ?_
  intro z _
  push_cast
  rfl

/-- A sign, `NOT` or a function before a factor. -/
theorem ev_prefix {A : Arith} {t : Tok} {ts rest : List Tok} {e : Ex} {e' : Ex} {σ : Env}
    (ht : isPrefix t = true) (h : P A 0 e ts) (hd : Declared σ e) (hF : Follow 0 rest)
    (hv : value A σ e' = (value A σ e).bind (applyFn A t)) :
    Ev A 0 (t :: ts ++ rest) σ ((value A σ e').bind fun v => .ok (v, rest, σ)) := by
  obtain ⟨N, hN⟩ := h.zero hd hF
  refine ⟨N + 1, fun f hf => ?_⟩
  obtain ⟨g, rfl, hg⟩ := fuel_succ hf
  rw [hv]
  have e1 : ev A (g + 1) 0 (t :: ts ++ rest) σ = (ev A g 0 (ts ++ rest) σ).bind fun p =>
      (applyFn A t p.1).bind fun n => .ok (n, p.2.1, p.2.2) := by
    rw [List.cons_append]
    conv_lhs => unfold ev
    cases t with
    | op o => dsimp only; rw [if_pos ht]
    | not => dsimp only; rw [if_pos ht]
    | fn k => dsimp only; rw [if_pos ht]
    | _ => cases ht
  rw [e1, hN g hg]
  cases value A σ e with
  | ok v => rfl
  | err => rfl
  | ub => rfl
  | out => rfl

theorem place_lt {k d : Nat} {j : Int} {k' : Nat} (h : place k d j = .ok k') : k' < (k + 1) * d := by
  unfold place at h
  split at h
  · rename_i hj
    cases h
    have h1 : j.toNat < d := by omega
    calc k * d + j.toNat < k * d + d := by omega
      _ = (k + 1) * d := by ring
  · cases h

/-- The place of an element lies within the array. -/
theorem cellOf_lt {A : Arith} {σ : Env} : ∀ {a : Args} {ds : List Nat} {k k' : Nat},
    ds.length = a.count → cellOf A σ ds k a = .ok k' → k' < (k + 1) * ds.prod
  | .one e, [], _, _, hl, _ => by simp [Args.count] at hl
  | .one e, d :: ds, k, k', hl, h => by
      have hd : ds = [] := by
        simp only [Args.count, List.length_cons] at hl
        exact List.length_eq_zero_iff.mp (by omega)
      subst hd
      unfold cellOf at h
      obtain ⟨v, _, h⟩ := Res.bind_eq_ok h
      obtain ⟨x, _, h⟩ := Res.bind_eq_ok h
      obtain ⟨j, _, h⟩ := Res.bind_eq_ok h
      simpa using place_lt h
  | .more e a, [], _, _, hl, _ => by simp [Args.count] at hl
  | .more e a, d :: ds, k, k', hl, h => by
      unfold cellOf at h
      obtain ⟨v, _, h⟩ := Res.bind_eq_ok h
      obtain ⟨x, _, h⟩ := Res.bind_eq_ok h
      obtain ⟨j, _, h⟩ := Res.bind_eq_ok h
      obtain ⟨k1, h1, h⟩ := Res.bind_eq_ok h
      have h2 := place_lt h1
      have h3 := cellOf_lt (ds := ds) (by simpa [Args.count] using hl) h
      rw [List.prod_cons]
      calc k' < (k1 + 1) * ds.prod := h3
        _ ≤ ((k + 1) * d) * ds.prod := Nat.mul_le_mul_right _ h2
        _ = (k + 1) * (d * ds.prod) := by ring

/-- One subscript. -/
theorem sub_step {A : Arith} {e : Ex} {ts rest : List Tok} {σ : Env} {d : Nat} {ds : List Nat} {k : Nat}
    (h : P A 6 e ts) (hd : Declared σ e) (hF : Follow 6 rest)
    (hs : ∀ o r, rest ≠ .op o :: r) {F : Nat → Nat → Res (Nat × List Tok × Env)}
    {x : Nat → Res Nat} {rest' : List Tok}
    (hF2 : ∀ f k, F f k = if ds = [] then subscripts A f ds k rest σ
      else (require .comma rest).bind fun r => subscripts A f ds k r σ)
    (hx : ∀ k, ∃ N, ∀ f, N ≤ f → F f k = (x k).bind fun k => .ok (k, rest', σ)) :
    Sb A (d :: ds) k (ts ++ rest) σ (((value A σ e).bind fun v => (number v).bind fun q =>
      (nearest q).bind fun j => (place k d j).bind x).bind fun k => .ok (k, rest', σ)) := by
  obtain ⟨N, hN⟩ := h.done hd hF (fun o r e => absurd e (hs o r))
  have key : ∀ g, N ≤ g → subscripts A (g + 1) (d :: ds) k (ts ++ rest) σ =
      ((value A σ e).bind fun v => .ok (v, rest, σ)).bind fun p =>
        p.1.real.bind fun x => (roundLong x).bind fun j =>
          if j < 0 ∨ (d : Int) ≤ j then .err
          else if ds = [] then subscripts A g ds (k * d + j.toNat) p.2.1 p.2.2
          else (require .comma p.2.1).bind fun r => subscripts A g ds (k * d + j.toNat) r p.2.2 := by
    intro g hg
    conv_lhs => unfold subscripts
    rw [hN g hg]
  cases hv : value A σ e with
  | ok v =>
    cases hn : number v with
    | ok q =>
      cases hj : nearest q with
      | ok j =>
        by_cases hb : 0 ≤ j ∧ j < (d : Int)
        · obtain ⟨N2, hN2⟩ := hx (k * d + j.toNat)
          refine ⟨max N N2 + 1, fun f hf => ?_⟩
          obtain ⟨g, rfl, hg⟩ := fuel_succ hf
          rw [key g (by omega), hv]
          simp only [Res.bind_ok, real_number, hn, roundLong_nearest, hj, place]
          rw [if_neg (by omega), if_pos hb, ← hF2 g]
          exact hN2 g (by omega)
        · refine ⟨N + 1, fun f hf => ?_⟩
          obtain ⟨g, rfl, hg⟩ := fuel_succ hf
          rw [key g hg, hv]
          simp only [Res.bind_ok, real_number, hn, roundLong_nearest, hj, place]
          rw [if_pos (by omega), if_neg hb]
          rfl
      | _ =>
        refine ⟨N + 1, fun f hf => ?_⟩
        obtain ⟨g, rfl, hg⟩ := fuel_succ hf
        rw [key g hg, hv]
        simp only [Res.bind_ok, real_number, hn, roundLong_nearest, hj]
        rfl
    | _ =>
      refine ⟨N + 1, fun f hf => ?_⟩
      obtain ⟨g, rfl, hg⟩ := fuel_succ hf
      rw [key g hg, hv]
      simp only [Res.bind_ok, real_number, hn]
      rfl
  | _ =>
    refine ⟨N + 1, fun f hf => ?_⟩
    obtain ⟨g, rfl, hg⟩ := fuel_succ hf
    rw [key g hg, hv]
    rfl

theorem value_bin (A : Arith) (σ : Env) (o : Op) (a b : Ex) :
    value A σ (.bin o a b) = (value A σ a).bind fun x =>
      if o = .pow ∧ isText x = true then .err
      else (value A σ b).bind fun y => onValues A o x y := by
  conv_lhs => unfold value

/-- The loop takes an operator of its level and the right operand. -/
theorem Lp.take {A : Arith} {l r : Nat} {o : Op} {x : Val} {b : Ex} {tb rest : List Tok} {σ : Env}
    (ho : prec o = l) (hl : 1 ≤ l) (hr : r = if l = 1 then 1 else l - 1) (hb : P A r b tb)
    (hd : Declared σ b) (hF : Follow l rest) {R : Res (Val × List Tok × Env)}
    (hR : Cont A l rest σ (if o = .pow ∧ isText x = true then .err
      else (value A σ b).bind fun y => onValues A o x y) R) :
    Lp A l x (.op o :: (tb ++ rest)) σ R := by
  have hop : o = .pow ↔ l = 1 := by
    rw [← ho]; cases o <;> simp [prec]
  have hstop : ∀ o r', rest = .op o :: r' → r < prec o := by
    intro o r' e
    have := hF.2 o r' e
    have h1 := this.2 hl
    split at hr
    · have : prec o ≠ 0 := by cases o <;> simp [prec]
      omega
    · omega
  have hF' : Follow r rest := ⟨hF.1, fun o r' e => ⟨le_of_lt (hstop o r' e), fun _ => (hF.2 o r' e).2 hl⟩⟩
  obtain ⟨N, hN⟩ := hb.done hd hF' hstop
  unfold Lp
  rw [if_neg (by omega)]
  have key : ∀ g, loop A (g + 1) l x (.op o :: (tb ++ rest)) σ =
      (if l = 1 then x.real.bind fun _ => ev A g 1 (tb ++ rest) σ
        else ev A g (l - 1) (tb ++ rest) σ).bind fun p =>
          (applyOp A o x p.1).bind fun n' => loop A g l n' p.2.1 p.2.2 := by
    intro g
    conv_lhs => unfold loop
    dsimp only
    rw [if_pos (by rw [level_prec]; exact ho)]
  have key2 : ∀ g, N ≤ g → ¬ (o = .pow ∧ isText x = true) →
      loop A (g + 1) l x (.op o :: (tb ++ rest)) σ =
        (value A σ b).bind fun y => (onValues A o x y).bind fun n' => loop A g l n' rest σ := by
    intro g hg hno
    rw [key g]
    have e1 : (if l = 1 then x.real.bind fun _ => ev A g 1 (tb ++ rest) σ
        else ev A g (l - 1) (tb ++ rest) σ) = ev A g r (tb ++ rest) σ := by
      by_cases h1 : l = 1
      · rw [if_pos h1] at hr ⊢
        subst hr
        cases x with
        | num q => rfl
        | str s => exact absurd ⟨hop.mpr h1, rfl⟩ hno
      · rw [if_neg h1] at hr ⊢; rw [hr]
    rw [e1, hN g hg]
    cases value A σ b with
    | ok y => simp only [Res.bind_ok, apply_values]
    | err => rfl
    | ub => rfl
    | out => rfl
  by_cases hno : o = .pow ∧ isText x = true
  · rw [if_pos hno] at hR
    have hR : R = .err := hR
    refine ⟨1, fun f hf => ?_⟩
    obtain ⟨g, rfl, -⟩ := fuel_succ hf
    rw [key g, if_pos (hop.mp hno.1), hR]
    cases x with
    | num q => simp [isText] at hno
    | str s => rfl
  · rw [if_neg hno] at hR
    cases hb2 : value A σ b with
    | ok y =>
      rw [hb2, Res.bind_ok] at hR
      cases ho2 : onValues A o x y with
      | ok n' =>
        rw [ho2] at hR
        have hR : Lp A l n' rest σ R := hR
        unfold Lp at hR
        rw [if_neg (by omega)] at hR
        obtain ⟨N2, hN2⟩ := hR
        refine ⟨max N N2 + 1, fun f hf => ?_⟩
        obtain ⟨g, rfl, hg⟩ := fuel_succ hf
        rw [key2 g (by omega) hno, hb2, Res.bind_ok, ho2, Res.bind_ok]
        exact hN2 g (by omega)
      | _ =>
        rw [ho2] at hR
        refine ⟨N + 1, fun f hf => ?_⟩
        obtain ⟨g, rfl, hg⟩ := fuel_succ hf
        rw [key2 g hg hno, hb2, Res.bind_ok, ho2]
        exact hR.symm
    | _ =>
      rw [hb2] at hR
      refine ⟨N + 1, fun f hf => ?_⟩
      obtain ⟨g, rfl, hg⟩ := fuel_succ hf
      rw [key2 g hg hno, hb2]
      exact hR.symm

/-- A left operand, an operator and a right operand, at the level of the
operator. -/
theorem bin_at {A : Arith} {l la r : Nat} {o : Op} {a b : Ex} {ta tb : List Tok}
    (ho : prec o = l) (hl : 1 ≤ l) (hr : r = if l = 1 then 1 else l - 1)
    (hla : la = if l = 1 then 0 else l) (ha : P A la a ta) (hb : P A r b tb) :
    P A l (.bin o a b) (ta ++ .op o :: tb) := by
  intro σ hd rest hF R hR
  rw [value_bin] at hR
  have hd' : Declared σ a ∧ Declared σ b := by unfold Declared at hd; exact hd
  rw [List.append_assoc, List.cons_append]
  have hFa : Follow la (.op o :: (tb ++ rest)) := by
    refine ⟨by simp, fun o' r' e => ?_⟩
    cases e
    rw [ho]
    split at hla
    · exact ⟨by omega, fun h => absurd h (by omega)⟩
    · exact ⟨by omega, fun _ => by assumption⟩
  by_cases h1 : l = 1
  · rw [if_pos h1] at hla
    subst hla
    have hz := ha.zero hd'.1 hFa
    subst h1
    cases hv : value A σ a with
    | ok x =>
      rw [hv] at hz hR
      exact Ev.up hz (Lp.take ho hl hr hb hd'.2 hF hR)
    | _ =>
      rw [hv] at hz hR
      have hR' := hR
      cases hR'
      exact Ev.up_bad hz (by simp)
  · rw [if_neg h1] at hla
    subst hla
    refine ha σ hd'.1 _ hFa R ?_
    cases hv : value A σ a with
    | ok x =>
      rw [hv] at hR
      exact Lp.take ho hl hr hb hd'.2 hF hR
    | _ => rw [hv] at hR; exact hR

theorem P.raise {A : Arith} {l0 l : Nat} {e : Ex} {ts : List Tok} (hl : l0 ≤ l)
    (h : P A l0 e ts) : P A l e ts := by
  intro σ hd rest hF
  refine Ev.lift hl hF ?_
  refine h σ hd rest ⟨hF.1, fun o r e => ?_⟩
  have := hF.2 o r e
  exact ⟨by omega, fun h => this.2 (by omega)⟩

theorem follow_close (r : List Tok) : Follow 6 (.rp :: r) := ⟨by simp, by simp⟩
theorem follow_comma (r : List Tok) : Follow 6 (.comma :: r) := ⟨by simp, by simp⟩

mutual
/-- The parser gives a written expression the value of its tree. -/
theorem writes_P (A : Arith) : ∀ {l : Nat} {e : Ex} {ts : List Tok}, Writes l e ts → P A l e ts
  | _, _, _, .num q => P.of_zero fun σ _ rest _ => ev_atom fun g => by simp [ev, value]
  | _, _, _, .str s => P.of_zero fun σ _ rest _ => ev_atom fun g => by simp [ev, value]
  | _, _, _, .var v => P.of_zero fun σ hd rest hF => by
      have hd : (σ v).dims = [] := by unfold Declared at hd; exact hd
      refine ⟨2, fun f hf => ?_⟩
      obtain ⟨g, rfl, hg⟩ := fuel_succ hf
      obtain ⟨g, rfl, -⟩ := fuel_succ hg
      have e1 : findvar A (g + 1) v rest σ = .ok (0, rest, σ) := by
        unfold findvar
        cases rest with
        | nil => simp [hd]
        | cons t r =>
          cases t with
          | lp => exact absurd rfl (hF.1 r)
          | _ => simp [hd]
      rw [List.singleton_append]
      conv_lhs => unfold ev
      dsimp only
      rw [e1]
      simp [value]
  | _, _, _, .elem (v := v) (a := a) (ts := ts) h => P.of_zero fun σ hd rest hF => by
      have hd : (σ v).dims.length = a.count ∧ DeclaredArgs σ a := by unfold Declared at hd; exact hd
      have hne : (σ v).dims ≠ [] := by
        intro h0; rw [h0] at hd; cases a <;> simp [Args.count] at hd
      obtain ⟨N, hN⟩ := writes_Q A h σ hd.2 (σ v).dims 0 rest hd.1 _ rfl
      refine ⟨N + 2, fun f hf => ?_⟩
      obtain ⟨g, rfl, hg⟩ := fuel_succ hf
      obtain ⟨g, rfl, hg⟩ := fuel_succ hg
      have e1 : findvar A (g + 1) v (.lp :: (ts ++ rest)) σ
          = (cellOf A σ (σ v).dims 0 a).bind fun k => .ok (k, rest, σ) := by
        conv_lhs => unfold findvar
        dsimp only
        unfold autodim
        rw [if_neg hne, Res.bind_ok, hN g (by omega)]
        cases hc : cellOf A σ (σ v).dims 0 a with
        | ok k =>
          have := cellOf_lt hd.1 hc
          simp only [Res.bind_ok]
          rw [if_pos (by simpa using this)]
        | err => rfl
        | ub => rfl
        | out => rfl
      rw [List.cons_append, List.cons_append]
      conv_lhs => unfold ev
      dsimp only
      rw [e1]
      conv_rhs => unfold value
      cases cellOf A σ (σ v).dims 0 a <;> rfl
  | _, _, _, .paren (e := e) (ts := ts) h => P.of_zero fun σ hd rest hF => by
      obtain ⟨N, hN⟩ := (writes_P A h).done hd (follow_close rest) (by simp)
      refine ⟨N + 1, fun f hf => ?_⟩
      obtain ⟨g, rfl, hg⟩ := fuel_succ hf
      have e1 : .lp :: (ts ++ [.rp]) ++ rest = Tok.lp :: (ts ++ .rp :: rest) := by simp
      rw [e1]
      conv_lhs => unfold ev
      dsimp only
      rw [hN g hg]
      cases value A σ e with
      | ok v => simp [require]
      | err => rfl
      | ub => rfl
      | out => rfl
  | _, _, _, .neg h => P.of_zero fun σ hd rest hF =>
      ev_prefix rfl (writes_P A h) (by unfold Declared at hd; exact hd) hF (by
        conv_lhs => unfold value
        exact Res.bind_congr rfl fun v _ => by simp only [applyFn, real_number])
  | _, _, _, .pos h => P.of_zero fun σ hd rest hF =>
      ev_prefix rfl (writes_P A h) (by unfold Declared at hd; exact hd) hF (by
        conv_lhs => unfold value
        exact Res.bind_congr rfl fun v _ => by simp only [applyFn, real_number])
  | _, _, _, .not h => P.of_zero fun σ hd rest hF =>
      ev_prefix rfl (writes_P A h) (by unfold Declared at hd; exact hd) hF (by
        conv_lhs => unfold value
        exact Res.bind_congr rfl fun v _ => (applyFn_not A v).symm)
  | _, _, _, .fn h => P.of_zero fun σ hd rest hF =>
      ev_prefix rfl (writes_P A h) (by unfold Declared at hd; exact hd) hF (by
        conv_lhs => unfold value
        exact Res.bind_congr rfl fun v _ => by
          simp only [applyFn, real_number]
          refine Res.bind_congr rfl fun x _ => ?_
          cases A.fn _ x <;> rfl)
  | _, _, _, .pow hl ha hb =>
      P.raise hl (bin_at rfl (le_refl 1) rfl rfl (writes_P A ha) (writes_P A hb))
  | _, _, _, .bin (p := p) ho hp hl ha hb =>
      P.raise hl (bin_at ho (by omega) (by rw [if_neg (by omega)]; rfl)
        (by rw [if_neg (by omega)]) (writes_P A ha) (writes_P A hb))

/-- The same for subscripts. -/
theorem writes_Q (A : Arith) : ∀ {a : Args} {ts : List Tok}, WritesArgs a ts → Q A a ts
  | _, _, .one (e := e) (ts := ts) h => by
      intro σ hd ds k rest hl R hR
      cases ds with
      | nil => simp [Args.count] at hl
      | cons d ds =>
        have hds : ds = [] := by
          simp only [Args.count, List.length_cons] at hl
          exact List.length_eq_zero_iff.mp (by omega)
        subst hds
        have hd : Declared σ e := by unfold DeclaredArgs at hd; exact hd
        rw [List.append_assoc, List.singleton_append, hR]
        have := sub_step (A := A) (k := k) (d := d) (ds := []) (writes_P A h) hd (follow_close rest)
          (by simp) (F := fun f k => subscripts A f [] k (.rp :: rest) σ) (x := fun k => .ok k)
          (rest' := rest) (fun f k => by simp) (fun k => ⟨1, fun f hf => by
            obtain ⟨g, rfl, -⟩ := fuel_succ hf
            simp [subscripts, require]⟩)
        have e2 : ∀ y : Res Nat, (y.bind fun k => Res.ok k) = y := by intro y; cases y <;> rfl
        simp only [e2] at this
        unfold cellOf
        exact this
  | _, _, .more (e := e) (a := a) (ts := ts) (ta := ta) h ha => by
      intro σ hd ds k rest hl R hR
      cases ds with
      | nil => simp [Args.count] at hl
      | cons d ds =>
        have hd : Declared σ e ∧ DeclaredArgs σ a := by unfold DeclaredArgs at hd; exact hd
        have hl' : ds.length = a.count := by simpa [Args.count] using hl
        have hne : ds ≠ [] := by
          intro h0; rw [h0] at hl'; cases a <;> simp [Args.count] at hl'
        rw [List.append_assoc, List.cons_append, hR]
        have := sub_step (A := A) (k := k) (d := d) (ds := ds) (writes_P A h) hd.1
          (follow_comma (ta ++ rest)) (by simp)
          (F := fun f k => subscripts A f ds k (ta ++ rest) σ) (x := fun k => cellOf A σ ds k a)
          (rest' := rest) (fun f k => by rw [if_neg hne]; simp [require])
          (fun k => writes_Q A ha σ hd.2 ds k rest hl' _ rfl)
        unfold cellOf
        exact this
end

/-- The parser on a written expression. -/
theorem expr_value {A : Arith} {e : Ex} {ts rest : List Tok} {σ : Env} (h : Writes 6 e ts)
    (hd : Declared σ e) (hl : ∀ r, rest ≠ .lp :: r) (ho : ∀ o r, rest ≠ .op o :: r) :
    expr A (ts ++ rest) σ = (value A σ e).bind fun v => .ok (v, rest, σ) := by
  obtain ⟨N, hN⟩ := (writes_P A h).done hd ⟨hl, fun o r e => absurd e (ho o r)⟩
    (fun o r e => absurd e (ho o r))
  unfold expr
  rw [← ev_stable A (le_refl 6) (by unfold fuelFor; omega) N]
  exact hN _ (by omega)

end Verif.Pbasic
