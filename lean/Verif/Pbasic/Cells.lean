import Verif.Pbasic.Exec
import Verif.Pbasic.Lines

/-!
# Lemmas on array elements, `FOR` loops and whole programs
-/

namespace Verif.Pbasic

variable {A : Arith} {prog : List Line}

/-! ## Specification -/

/-- The subscripts of an element: the whole numbers nearest to their values. -/
inductive Subs (A : Arith) (σ : Env) : Args → List Int → Prop where
  | one {e : Ex} {q : ℚ} {j : Int} (h : value A σ e = .ok (.num q)) (hj : nearest q = .ok j) :
      Subs A σ (.one e) [j]
  | more {e : Ex} {a : Args} {q : ℚ} {j : Int} {js : List Int} (h : value A σ e = .ok (.num q))
      (hj : nearest q = .ok j) (hs : Subs A σ a js) : Subs A σ (.more e a) (j :: js)

/-- Each subscript lies between 0 and its dimension less one. -/
def InRange (js : List Int) (ds : List Nat) : Prop :=
  List.Forall₂ (fun j (d : Nat) => 0 ≤ j ∧ j < (d : Int)) js ds

/-- How often the body of a `FOR` loop is executed. -/
def times (a b step : ℚ) : Nat := (⌊(b - a) / step⌋ + 1).toNat

/-! ## Array elements -/

theorem subs_count {σ : Env} {a : Args} {js : List Int} (h : Subs A σ a js) : js.length = a.count := by
  induction h with
  | one => rfl
  | more _ _ _ ih => simp [Args.count, ih]

theorem cellOf_in {σ : Env} {a : Args} {js : List Int} (h : Subs A σ a js) : ∀ {ds : List Nat}
    (k : Nat), InRange js ds → ∃ c, cellOf A σ ds k a = .ok c := by
  induction h with
  | one h hj =>
    intro ds k hr
    cases hr with
    | cons h1 h2 =>
      cases h2
      unfold cellOf
      rw [h]
      simp only [Res.bind_ok, number, hj, place]
      rw [if_pos h1]
      exact ⟨_, rfl⟩
  | more h hj _ ih =>
    intro ds k hr
    cases hr with
    | cons h1 h2 =>
      unfold cellOf
      rw [h]
      simp only [Res.bind_ok, number, hj, place]
      rw [if_pos h1]
      exact ih _ h2

theorem cellOf_out {σ : Env} {a : Args} {js : List Int} (h : Subs A σ a js) : ∀ {ds : List Nat}
    (k : Nat), js.length = ds.length → ¬ InRange js ds → cellOf A σ ds k a = .err := by
  induction h with
  | one h hj =>
    rename_i e q j
    intro ds k hl hr
    match ds, hl with
    | [d], _ =>
      unfold cellOf
      rw [h]
      simp only [Res.bind_ok, number, hj, place]
      rw [if_neg fun hc => hr (.cons hc .nil)]
  | more h hj _ ih =>
    rename_i e a q j js _
    intro ds k hl hr
    match ds, hl with
    | d :: ds, hl =>
      unfold cellOf
      rw [h]
      simp only [Res.bind_ok, number, hj, place]
      by_cases hc : 0 ≤ j ∧ j < (d : Int)
      · rw [if_pos hc]
        exact ih _ (by simpa using hl) fun h2 => hr (.cons hc h2)
      · rw [if_neg hc]; rfl

theorem row_inj {k k' d : Nat} {j j' : Int} (h : 0 ≤ j ∧ j < (d : Int)) (h' : 0 ≤ j' ∧ j' < (d : Int))
    (e : k * d + j.toNat = k' * d + j'.toNat) : k = k' ∧ j = j' := by
  have hd : 0 < d := by omega
  have e1 : (k * d + j.toNat) / d = k := by
    rw [Nat.add_comm, Nat.add_mul_div_right _ _ hd, Nat.div_eq_of_lt (by omega), Nat.zero_add]
  have e2 : (k' * d + j'.toNat) / d = k' := by
    rw [Nat.add_comm, Nat.add_mul_div_right _ _ hd, Nat.div_eq_of_lt (by omega), Nat.zero_add]
  have hk : k = k' := by rw [← e1, e, e2]
  subst hk
  exact ⟨rfl, by omega⟩

theorem cellOf_one {σ : Env} {e : Ex} {q : ℚ} {j : Int} {d k c : Nat} {ds : List Nat}
    (h : value A σ e = .ok (.num q)) (hj : nearest q = .ok j)
    (hc : cellOf A σ (d :: ds) k (.one e) = .ok c) :
    (0 ≤ j ∧ j < (d : Int)) ∧ c = k * d + j.toNat := by
  unfold cellOf at hc
  rw [h] at hc
  simp only [Res.bind_ok, number, hj, place] at hc
  by_cases hr : 0 ≤ j ∧ j < (d : Int)
  · rw [if_pos hr] at hc; injection hc with hc; exact ⟨hr, hc.symm⟩
  · rw [if_neg hr] at hc; cases hc

theorem cellOf_more {σ : Env} {e : Ex} {a : Args} {q : ℚ} {j : Int} {d k c : Nat} {ds : List Nat}
    (h : value A σ e = .ok (.num q)) (hj : nearest q = .ok j)
    (hc : cellOf A σ (d :: ds) k (.more e a) = .ok c) :
    (0 ≤ j ∧ j < (d : Int)) ∧ cellOf A σ ds (k * d + j.toNat) a = .ok c := by
  unfold cellOf at hc
  rw [h] at hc
  simp only [Res.bind_ok, number, hj, place] at hc
  by_cases hr : 0 ≤ j ∧ j < (d : Int)
  · rw [if_pos hr] at hc; exact ⟨hr, hc⟩
  · rw [if_neg hr] at hc; cases hc

theorem cellOf_inj {σ σ' : Env} {a : Args} {js : List Int} (h : Subs A σ a js) : ∀ {a' : Args}
    {js' : List Int} {ds : List Nat} {k k' c : Nat}, Subs A σ' a' js' → js.length = ds.length →
    js'.length = ds.length → cellOf A σ ds k a = .ok c → cellOf A σ' ds k' a' = .ok c →
    k = k' ∧ js = js' := by
  induction h with
  | one h hj =>
    rename_i e q j
    intro a' js' ds k k' c h' hl hl' hc hc'
    match ds, hl with
    | [d], _ =>
      cases h' with
      | one h2 hj2 =>
        obtain ⟨r1, e1⟩ := cellOf_one h hj hc
        obtain ⟨r2, e2⟩ := cellOf_one h2 hj2 hc'
        obtain ⟨h3, h4⟩ := row_inj r1 r2 (e1.symm.trans e2)
        exact ⟨h3, by rw [h4]⟩
      | more h2 hj2 hs =>
        have := subs_count hs
        rename_i a' _ _ js'
        simp only [List.length_cons, List.length_nil] at hl'
        cases a' <;> simp [Args.count] at this <;> omega
  | more h hj hs ih =>
    rename_i e a q j js
    intro a' js' ds k k' c h' hl hl' hc hc'
    match ds, hl with
    | d :: ds, hl =>
      cases h' with
      | one h2 hj2 =>
        have := subs_count hs
        simp only [List.length_cons, List.length_nil] at hl hl'
        cases a <;> simp [Args.count] at this <;> omega
      | more h2 hj2 hs2 =>
        obtain ⟨r1, e1⟩ := cellOf_more h hj hc
        obtain ⟨r2, e2⟩ := cellOf_more h2 hj2 hc'
        simp only [List.length_cons] at hl hl'
        obtain ⟨h3, h4⟩ := ih hs2 (by omega) (by omega) e1 e2
        obtain ⟨h5, h6⟩ := row_inj r1 r2 h3
        exact ⟨h5, by rw [h6, h4]⟩

theorem declared_dims {σ σ' : Env} (h : ∀ w, (σ' w).dims = (σ w).dims) {v : V} {a : Args}
    (hd : Declared σ (.elem v a)) : (σ' v).dims.length = a.count := by
  have hd : (σ v).dims.length = a.count ∧ DeclaredArgs σ a := by unfold Declared at hd; exact hd
  rw [h v]; exact hd.1

mutual
theorem declared_same {σ σ' : Env} (h : ∀ w, (σ' w).dims = (σ w).dims) : ∀ {e : Ex},
    Declared σ e → Declared σ' e
  | .num _, _ => by unfold Declared; trivial
  | .str _, _ => by unfold Declared; trivial
  | .var v, hd => by unfold Declared at hd ⊢; rw [h v]; exact hd
  | .elem v a, hd => by
      unfold Declared at hd ⊢
      rw [h v]; exact ⟨hd.1, declaredArgs_same h hd.2⟩
  | .neg e, hd => by unfold Declared at hd ⊢; exact declared_same h hd
  | .pos e, hd => by unfold Declared at hd ⊢; exact declared_same h hd
  | .not e, hd => by unfold Declared at hd ⊢; exact declared_same h hd
  | .fn _ e, hd => by unfold Declared at hd ⊢; exact declared_same h hd
  | .bin _ a b, hd => by
      unfold Declared at hd ⊢; exact ⟨declared_same h hd.1, declared_same h hd.2⟩

theorem declaredArgs_same {σ σ' : Env} (h : ∀ w, (σ' w).dims = (σ w).dims) : ∀ {a : Args},
    DeclaredArgs σ a → DeclaredArgs σ' a
  | .one e, hd => by unfold DeclaredArgs at hd ⊢; exact declared_same h hd
  | .more e a, hd => by
      unfold DeclaredArgs at hd ⊢; exact ⟨declared_same h hd.1, declaredArgs_same h hd.2⟩
end

/-- The value put into a cell exists. -/
theorem put_exists {σ : Env} {v : V} (k : Nat) {x : Val} (h : isText x = v.isStr) :
    ∃ σ', put σ v k x σ' := by
  cases x with
  | num q =>
    have h : v.isStr = false := h.symm
    refine ⟨σ.setNum v k q, fun w hw => by simp [Env.setNum, hw], by simp [Env.setNum], ?_⟩
    exact ⟨h, by simp [Env.setNum], fun i => by simp [Env.setNum]⟩
  | str t =>
    have h : v.isStr = true := h.symm
    refine ⟨σ.setStr v k t, fun w hw => by simp [Env.setStr, hw], by simp [Env.setStr], ?_⟩
    exact ⟨h, by simp [Env.setStr], fun i => by simp [Env.setStr]⟩

theorem put_all_dims {σ σ' : Env} {v : V} {k : Nat} {x : Val} (h : put σ v k x σ') (w : V) :
    (σ' w).dims = (σ w).dims := by
  by_cases hw : w = v
  · rw [hw]; exact h.2.1
  · rw [h.1 w hw]

theorem read_put {σ σ' : Env} {v w : V} {k c : Nat} {x : Val} (h : put σ v k x σ') :
    σ'.read w c = if w = v ∧ c = k then x else σ.read w c := by
  by_cases hw : w = v
  · subst hw
    obtain ⟨-, -, h3⟩ := h
    unfold Env.read
    cases x with
    | num q =>
      obtain ⟨h3, h4, h5⟩ := h3
      rw [h3, h5]
      by_cases hc : c = k <;> simp [hc]
    | str t =>
      obtain ⟨h3, h4, h5⟩ := h3
      rw [h3, h5]
      by_cases hc : c = k <;> simp [hc]
  · rw [if_neg (fun hc => hw hc.1)]
    unfold Env.read
    rw [h.1 w hw]

theorem elem_read {σ : Env} {w : V} {a : Args} {ta : List Tok} (hw : WritesArgs a ta)
    (hd : Declared σ (.elem w a)) {c : Nat} (hc : cellOf A σ (σ w).dims 0 a = .ok c) :
    expr A (.var w :: .lp :: ta) σ = .ok (σ.read w c, [], σ) := by
  have hv : value A σ (.elem w a) = .ok (σ.read w c) := by
    unfold value; rw [hc]; rfl
  have := expr_of (rest := []) (Writes.elem hw) hd ends_nil hv
  rwa [List.append_nil] at this

/-! ## `FOR` loops -/

theorem inside_times {a b s : ℚ} (hs : s ≠ 0) (i : Nat) : Inside s b (a + i * s) ↔ i < times a b s := by
  have key : ((i : ℚ) ≤ (b - a) / s) ↔ i < times a b s := by
    have h1 : ((i : ℚ) ≤ (b - a) / s) ↔ ((i : Int) ≤ ⌊(b - a) / s⌋) := by
      rw [Int.le_floor]; simp
    rw [h1]
    unfold times
    omega
  rw [← key]
  unfold Inside
  rcases lt_or_gt_of_ne hs with h | h
  · rw [le_div_iff_of_neg h]
    constructor
    · rintro ⟨-, h2, -⟩; have := h2 h; linarith
    · intro h2
      exact ⟨fun h3 => absurd h3 (not_lt.mpr h.le), fun _ => by linarith, fun h3 => absurd h3 hs⟩
  · rw [le_div_iff₀ h]
    constructor
    · rintro ⟨h2, -, -⟩; have := h2 h; linarith
    · intro h2
      exact ⟨fun _ => by linarith, fun h3 => absurd h3 (not_lt.mpr h.le), fun h3 => absurd h3 hs⟩

theorem iter_times {sub : Nat → Option Blk} {v : V} {a b st : ℚ} {body : Blk} (hst : st ≠ 0)
    {t u : Nat → St} (hn : ∀ i ≤ times a b st, ((t i).env v).numCell 0 = a + i * st)
    (hb : ∀ i < times a b st, Runs A sub (.b body) (t i) (u i))
    (hk : ∀ i < times a b st, ((u i).env v).numCell 0 = a + i * st ∧ ((u i).env v).dims = [])
    (hp : ∀ i < times a b st, put (u i).env v 0 (.num (a + (i + 1 : Nat) * st)) (t (i + 1)).env)
    (ho : ∀ i < times a b st, (t (i + 1)).outp = (u i).outp) : ∀ j ≤ times a b st,
    Runs A sub (.iter v b st body) (t (times a b st - j)) (t (times a b st))
  | 0, _ => by
      refine Runs.iterEnd ?_
      rw [Nat.sub_zero, hn _ (le_refl _), inside_times hst]
      omega
  | j + 1, hj => by
      have ih := iter_times hst hn hb hk hp ho j (by omega)
      have hlt : times a b st - (j + 1) < times a b st := by omega
      have hsucc : times a b st - (j + 1) + 1 = times a b st - j := by omega
      obtain ⟨k1, k2⟩ := hk _ hlt
      have hp' := hp _ hlt
      have ho' := ho _ hlt
      rw [hsucc] at hp' ho'
      refine Runs.iterMore (s1 := u (times a b st - (j + 1))) (σ2 := (t (times a b st - j)).env)
        ?_ (hb _ hlt) k2 ?_ ?_
      · rw [hn _ hlt.le, inside_times hst]; exact hlt
      · have e : a + ((times a b st - (j + 1) : Nat) : ℚ) * st + st
            = a + ((times a b st - j : Nat) : ℚ) * st := by
          rw [← hsucc]; push_cast; ring
        rw [k1, e]; exact hp'
      · rw [← ho']; exact ih

/-! ## Whole programs -/

theorem reach_end {m m' : M} (h : Reach A prog m m') (he : m'.ln = []) :
    ∃ N, ∀ n, N ≤ n → run A prog n m = .ok m' := by
  obtain ⟨N, h⟩ := h
  refine ⟨N, fun n hn => ?_⟩
  obtain ⟨j, rfl⟩ := Nat.exists_eq_add_of_le hn
  exact run_add h (run_ended he j)

end Verif.Pbasic
