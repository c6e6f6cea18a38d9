import Verif.Reaction.Spec
import Mathlib.Tactic.Linarith
import Mathlib.Tactic.Ring
import Mathlib.Data.List.Nodup
import Mathlib.Data.List.Perm.Subperm

/-!
# What `trxn_combine` leaves

The loop works in place. Here it is shown to be a pass over the entries with a stack, and what the pass
keeps is stated.
-/

namespace Verif.Reaction

open Verif.Equation (strLe)

/-- One entry put on the stack. -/
def put (st : List Tok) (t : Tok) : List Tok :=
  match st with
  | [] => [t]
  | u :: r =>
    if same t u = true then
      if small (u.coef + t.coef) then r else { u with coef := u.coef + t.coef } :: r
    else t :: u :: r

theorem get_mid {α : Type} (P : List α) (x : α) (Q : List α) : (P ++ x :: Q)[P.length]? = some x := by
  simp

theorem set_mid {α : Type} (P : List α) (x y : α) (Q : List α) :
    (P ++ x :: Q).set P.length y = P ++ y :: Q := by
  simp

theorem put_mem {Q : ℚ → Prop} (hQ : Closed Q) {st : List Tok} {t : Tok} {todo : List Tok}
    (h : ∀ u ∈ st ++ t :: todo, Q u.coef) : ∀ u ∈ put st t ++ todo, Q u.coef := by
  intro v hv
  rcases List.mem_append.mp hv with hv | hv
  · cases st with
    | nil => exact h v (by simp_all [put])
    | cons x r =>
      simp only [put] at hv
      split at hv
      · split at hv
        · exact h v (by simp [hv])
        · rcases List.mem_cons.mp hv with rfl | hv
          · exact hQ.add _ _ (h x (by simp)) (h t (by simp))
          · exact h v (by simp [hv])
      · rcases List.mem_cons.mp hv with rfl | hv
        · exact h v (by simp)
        · exact h v (by rcases List.mem_cons.mp hv with rfl | hv <;> simp_all)
  · exact h v (by simp [hv])

/-- The loop is the pass: `st` are the entries kept (last first), `mid` the entries between them and the
next entry, `todo` the entries still to be read. -/
theorem loop_spec {Q : ℚ → Prop} (hQ : Closed Q) (h : Tok) (rest : List Tok) (todo : List Tok) : ∀ st mid : List Tok,
    (∀ u ∈ st ++ todo, Q u.coef) →
    (st = [] → ∃ x xs, mid = x :: xs ∧ small x.coef = true ∧ Q x.coef) →
    ∃ mid', loop todo.length (h :: (st.reverse ++ (mid ++ (todo ++ rest)))) st.length
        (1 + st.length + mid.length) =
      some (h :: ((todo.foldl put st).reverse ++ (mid' ++ rest)), (todo.foldl put st).length) ∧
      (todo.foldl put st = [] → ∃ x xs, mid' = x :: xs ∧ small x.coef = true ∧ Q x.coef) ∧
      (todo.foldl put st).length + mid'.length = st.length + mid.length + todo.length := by
  induction todo with
  | nil =>
    intro st mid _ hst
    exact ⟨mid, rfl, hst, rfl⟩
  | cons t todo ih =>
    intro st mid hq hst
    have hput := put_mem hQ hq
    have hk : (h :: (st.reverse ++ (mid ++ (t :: todo ++ rest))))[1 + st.length + mid.length]? = some t := by
      have := get_mid (h :: (st.reverse ++ mid)) t (todo ++ rest)
      have hl : (h :: (st.reverse ++ mid)).length = 1 + st.length + mid.length := by simp; omega
      rw [hl] at this
      simpa using this
    cases st with
    | nil =>
      obtain ⟨x, xs, rfl, hx⟩ := hst rfl
      obtain ⟨m', h1, h2, h3⟩ := ih [t] (xs ++ [t]) hput (by intro h; cases h)
      refine ⟨m', ?_, h2, ?_⟩
      · have hs : step (h :: (([] : List Tok).reverse ++ (x :: xs ++ (t :: todo ++ rest))))
            ([] : List Tok).length (1 + ([] : List Tok).length + (x :: xs).length) =
            some (h :: ([t].reverse ++ (xs ++ [t] ++ (todo ++ rest))), 1) := by
          unfold step
          rw [hk]
          dsimp only [List.reverse_nil, List.nil_append, List.length_nil, List.getElem?_cons_zero]
          rw [if_neg (by omega), if_neg (by simp only [List.length_cons]; omega)]
          simp
        show loop (todo.length + 1) _ _ _ = _
        unfold loop
        rw [hs]
        dsimp only
        have e : 1 + ([] : List Tok).length + (x :: xs).length + 1 = 1 + [t].length + (xs ++ [t]).length := by
          simp; omega
        rw [e]
        exact h1
      · have : ([t] : List Tok).length + (xs ++ [t]).length + todo.length =
            ([] : List Tok).length + (x :: xs).length + (t :: todo).length := by
          simp; omega
        rw [← this, ← h3]
        rfl
    | cons u r =>
      have hj : (h :: ((u :: r).reverse ++ (mid ++ (t :: todo ++ rest))))[(u :: r).length]? = some u := by
        have := get_mid (h :: r.reverse) u (mid ++ (t :: todo ++ rest))
        have hl : (h :: r.reverse).length = (u :: r).length := by simp
        rw [hl] at this
        simpa using this
      have hset : ∀ y, (h :: ((u :: r).reverse ++ (mid ++ (t :: todo ++ rest)))).set (u :: r).length y =
          h :: (r.reverse ++ (y :: mid ++ (t :: todo ++ rest))) := by
        intro y
        have := set_mid (h :: r.reverse) u y (mid ++ (t :: todo ++ rest))
        have hl : (h :: r.reverse).length = (u :: r).length := by simp
        rw [hl] at this
        simpa using this
      by_cases hs : same t u = true
      · by_cases hc : small (u.coef + t.coef) = true
        · have hp : put (u :: r) t = r := by
            simp only [put, hs, hc, if_true]
          rw [hp] at hput
          obtain ⟨m', h1, h2, h3⟩ := ih r ({ u with coef := u.coef + t.coef } :: mid ++ [t])
            hput (fun _ => ⟨{ u with coef := u.coef + t.coef }, mid ++ [t], rfl, hc,
              hQ.add _ _ (hq u (by simp)) (hq t (by simp))⟩)
          refine ⟨m', ?_, ?_, ?_⟩
          · show loop (todo.length + 1) _ _ _ = _
            unfold loop
            have : step (h :: ((u :: r).reverse ++ (mid ++ (t :: todo ++ rest)))) (u :: r).length
                (1 + (u :: r).length + mid.length) =
                some (h :: (r.reverse ++ ({ u with coef := u.coef + t.coef } :: mid ++ [t] ++ (todo ++ rest))),
                  r.length) := by
              unfold step
              rw [hk, hj]
              dsimp only
              rw [if_pos ⟨by simp, hs⟩, hset, if_pos hc]
              simp
            rw [this]
            dsimp only
            have e : 1 + (u :: r).length + mid.length + 1 =
                1 + r.length + ({ u with coef := u.coef + t.coef } :: mid ++ [t]).length := by
              simp; omega
            rw [e, h1, List.foldl_cons, hp]
          · rw [List.foldl_cons, hp]; exact h2
          · rw [List.foldl_cons, hp, h3]; simp; omega
        · have hp : put (u :: r) t = { u with coef := u.coef + t.coef } :: r := by
            simp only [put, hs, hc, if_true]; rfl
          rw [hp] at hput
          obtain ⟨m', h1, h2, h3⟩ := ih ({ u with coef := u.coef + t.coef } :: r) (mid ++ [t])
            hput (by intro h; cases h)
          refine ⟨m', ?_, ?_, ?_⟩
          · show loop (todo.length + 1) _ _ _ = _
            unfold loop
            have : step (h :: ((u :: r).reverse ++ (mid ++ (t :: todo ++ rest)))) (u :: r).length
                (1 + (u :: r).length + mid.length) =
                some (h :: (({ u with coef := u.coef + t.coef } :: r).reverse ++
                  (mid ++ [t] ++ (todo ++ rest))), ({ u with coef := u.coef + t.coef } :: r).length) := by
              unfold step
              rw [hk, hj]
              dsimp only
              rw [if_pos ⟨by simp, hs⟩, hset, if_neg hc]
              simp
            rw [this]
            dsimp only
            have e : 1 + (u :: r).length + mid.length + 1 =
                1 + ({ u with coef := u.coef + t.coef } :: r).length + (mid ++ [t]).length := by
              simp; omega
            rw [e, h1, List.foldl_cons, hp]
          · rw [List.foldl_cons, hp]; exact h2
          · rw [List.foldl_cons, hp, h3]; simp; omega
      · have hp : put (u :: r) t = t :: u :: r := by
          simp only [put, hs]; rfl
        rw [hp] at hput
        cases mid with
        | nil =>
          obtain ⟨m', h1, h2, h3⟩ := ih (t :: u :: r) [] hput (by intro h; cases h)
          refine ⟨m', ?_, ?_, ?_⟩
          · show loop (todo.length + 1) _ _ _ = _
            unfold loop
            have : step (h :: ((u :: r).reverse ++ ([] ++ (t :: todo ++ rest)))) (u :: r).length
                (1 + (u :: r).length + ([] : List Tok).length) =
                some (h :: ((t :: u :: r).reverse ++ ([] ++ (todo ++ rest))), (t :: u :: r).length) := by
              unfold step
              rw [hk, hj]
              dsimp only
              rw [if_neg (fun h => hs h.2), if_pos (by simp; omega)]
              simp
            rw [this]
            dsimp only
            have e : 1 + (u :: r).length + ([] : List Tok).length + 1 =
                1 + (t :: u :: r).length + ([] : List Tok).length := by
              simp; omega
            rw [e, h1, List.foldl_cons, hp]
          · rw [List.foldl_cons, hp]; exact h2
          · rw [List.foldl_cons, hp, h3]; simp; omega
        | cons x xs =>
          obtain ⟨m', h1, h2, h3⟩ := ih (t :: u :: r) (xs ++ [t]) hput (by intro h; cases h)
          refine ⟨m', ?_, ?_, ?_⟩
          · show loop (todo.length + 1) _ _ _ = _
            unfold loop
            have : step (h :: ((u :: r).reverse ++ (x :: xs ++ (t :: todo ++ rest)))) (u :: r).length
                (1 + (u :: r).length + (x :: xs).length) =
                some (h :: ((t :: u :: r).reverse ++ (xs ++ [t] ++ (todo ++ rest))), (t :: u :: r).length) := by
              unfold step
              rw [hk, hj]
              dsimp only
              rw [if_neg (fun h => hs h.2), if_neg (by simp; omega)]
              have := set_mid (h :: (u :: r).reverse) x t (xs ++ (t :: todo ++ rest))
              have hl : (h :: (u :: r).reverse).length = (u :: r).length + 1 := by simp
              rw [hl] at this
              have e2 : h :: ((u :: r).reverse ++ (x :: xs ++ (t :: todo ++ rest))) =
                  h :: (u :: r).reverse ++ x :: (xs ++ (t :: todo ++ rest)) := by simp
              rw [e2, this]
              simp
            rw [this]
            dsimp only
            have e : 1 + (u :: r).length + (x :: xs).length + 1 =
                1 + (t :: u :: r).length + (xs ++ [t]).length := by
              simp; omega
            rw [e, h1, List.foldl_cons, hp]
          · rw [List.foldl_cons, hp]; exact h2
          · rw [List.foldl_cons, hp, h3]; simp; omega

/-! ### What the pass keeps -/

theorem tot_cons (w : Weight) (u : Tok) (l : List Tok) :
    tot w (u :: l) = u.coef * w u.sp u.name + tot w l := by
  simp [tot]

theorem tot_append (w : Weight) (l m : List Tok) : tot w (l ++ m) = tot w l + tot w m := by
  simp [tot]

theorem tot_perm (w : Weight) {l m : List Tok} (h : l.Perm m) : tot w l = tot w m :=
  (h.map _).sum_eq

theorem tot_scale (w : Weight) (c : ℚ) (l : List Tok) : tot w (scale c l) = c * tot w l := by
  induction l with
  | nil => simp [tot, scale]
  | cons u l ih =>
    have : scale c (u :: l) = { u with coef := c * u.coef } :: scale c l := rfl
    rw [this, tot_cons, tot_cons, ih]
    ring

theorem small_iff (x : ℚ) : small x = true ↔ |x| ≤ tol := by
  simp [small, tol]

theorem same_iff {t u : Tok} : same t u = true ↔ t.sp = u.sp ∧ t.name = u.name := by
  simp [same]

/-- Sums are kept up to the terms taken out; each of these takes two entries. -/
theorem pass_tot {Q : ℚ → Prop} (hQ : Closed Q) (todo : List Tok) : ∀ st : List Tok, ∃ D : List Tok,
    2 * D.length + (todo.foldl put st).length ≤ st.length + todo.length ∧
    (∀ d ∈ D, |d.coef| ≤ tol) ∧
    ((∀ u ∈ st ++ todo, Q u.coef) → ∀ u ∈ D ++ todo.foldl put st, Q u.coef) ∧
    ∀ w, tot w (todo.foldl put st) + tot w D = tot w st + tot w todo := by
  induction todo with
  | nil => intro st; exact ⟨[], by simp, by simp, by simp, by simp [tot]⟩
  | cons t todo ih =>
    intro st
    obtain ⟨D, h1, h2, h3, h4⟩ := ih (put st t)
    cases st with
    | nil =>
      refine ⟨D, ?_, h2, ?_, ?_⟩
      · simp only [List.foldl_cons, put, List.length_cons, List.length_nil] at h1 ⊢; omega
      · intro hi
        exact h3 (by simpa [put] using hi)
      · intro w
        have := h4 w
        rw [List.foldl_cons, this]
        simp only [put, tot_cons]
        simp [tot]
    | cons u r =>
      by_cases hs : same t u = true
      · by_cases hc : small (u.coef + t.coef) = true
        · have hp : put (u :: r) t = r := by simp only [put, hs, hc, if_true]
          rw [hp] at h1 h3 h4
          refine ⟨{ u with coef := u.coef + t.coef } :: D, ?_, ?_, ?_, ?_⟩
          · rw [List.foldl_cons, hp]
            simp only [List.length_cons] at h1 ⊢; omega
          · intro d hd
            rcases List.mem_cons.mp hd with rfl | hd
            · exact (small_iff _).mp hc
            · exact h2 d hd
          · intro hi v hv
            rw [List.foldl_cons, hp] at hv
            rcases List.mem_cons.mp hv with rfl | hv
            · exact hQ.add _ _ (hi u (by simp)) (hi t (by simp))
            · refine h3 ?_ v hv
              intro x hx
              apply hi
              rcases List.mem_append.mp hx with hx | hx <;> simp [hx]
          · intro w
            rw [List.foldl_cons, hp, tot_cons, tot_cons, tot_cons]
            have := h4 w
            obtain ⟨e1, e2⟩ := same_iff.mp hs
            rw [e1, e2]
            simp only
            linarith [this]
        · have hp : put (u :: r) t = { u with coef := u.coef + t.coef } :: r := by
            simp only [put, hs, hc, if_true]; rfl
          rw [hp] at h1 h3 h4
          refine ⟨D, ?_, h2, ?_, ?_⟩
          · rw [List.foldl_cons, hp]
            simp only [List.length_cons] at h1 ⊢; omega
          · intro hi
            rw [List.foldl_cons, hp]
            refine h3 ?_
            intro x hx
            rcases List.mem_append.mp hx with hx | hx
            · rcases List.mem_cons.mp hx with rfl | hx
              · exact hQ.add _ _ (hi u (by simp)) (hi t (by simp))
              · exact hi x (by simp [hx])
            · exact hi x (by simp [hx])
          · intro w
            rw [List.foldl_cons, hp, h4 w, tot_cons, tot_cons, tot_cons]
            obtain ⟨e1, e2⟩ := same_iff.mp hs
            rw [e1, e2]
            simp only
            ring
      · have hp : put (u :: r) t = t :: u :: r := by simp only [put, hs]; rfl
        rw [hp] at h1 h3 h4
        refine ⟨D, ?_, h2, ?_, ?_⟩
        · rw [List.foldl_cons, hp]
          simp only [List.length_cons] at h1 ⊢; omega
        · intro hi
          rw [List.foldl_cons, hp]
          refine h3 ?_
          intro x hx
          apply hi
          rcases List.mem_append.mp hx with hx | hx
          · rcases List.mem_cons.mp hx with rfl | hx
            · simp
            · rcases List.mem_cons.mp hx with rfl | hx <;> simp_all
          · simp [hx]
        · intro w
          rw [List.foldl_cons, hp, h4 w, tot_cons, tot_cons, tot_cons]
          ring

/-- No new names. -/
theorem pass_mem (todo : List Tok) : ∀ st : List Tok, ∀ u ∈ todo.foldl put st,
    ∃ v ∈ st ++ todo, v.sp = u.sp ∧ v.name = u.name := by
  induction todo with
  | nil => intro st u hu; exact ⟨u, by simpa using hu, rfl, rfl⟩
  | cons t todo ih =>
    intro st u hu
    obtain ⟨v, hv, e⟩ := ih _ u hu
    rcases List.mem_append.mp hv with hv | hv
    · cases st with
      | nil => exact ⟨v, by simp_all [put], e⟩
      | cons x r =>
        simp only [put] at hv
        split at hv
        · split at hv
          · exact ⟨v, by simp [hv], e⟩
          · rcases List.mem_cons.mp hv with rfl | hv
            · exact ⟨x, by simp, e⟩
            · exact ⟨v, by simp [hv], e⟩
        · rcases List.mem_cons.mp hv with rfl | hv
          · exact ⟨v, by simp, e⟩
          · exact ⟨v, by rcases List.mem_cons.mp hv with rfl | hv <;> simp_all, e⟩
    · exact ⟨v, by simp [hv], e⟩

/-- No term becomes small. -/
theorem pass_large (todo : List Tok) : ∀ st : List Tok, (∀ u ∈ st ++ todo, small u.coef = false) →
    ∀ u ∈ todo.foldl put st, small u.coef = false := by
  induction todo with
  | nil => intro st h u hu; exact h u (by simpa using hu)
  | cons t todo ih =>
    intro st h
    refine ih _ ?_
    intro v hv
    rcases List.mem_append.mp hv with hv | hv
    · cases st with
      | nil => exact h v (by simp_all [put])
      | cons x r =>
        simp only [put] at hv
        split at hv
        · split at hv
          · exact h v (by simp [hv])
          · rename_i hc
            rcases List.mem_cons.mp hv with rfl | hv
            · simpa using hc
            · exact h v (by simp [hv])
        · rcases List.mem_cons.mp hv with rfl | hv
          · exact h v (by simp)
          · exact h v (by rcases List.mem_cons.mp hv with rfl | hv <;> simp_all)
    · exact h v (by simp [hv])

/-- On a sorted list of species the pass leaves every name once. -/
theorem pass_sorted (todo : List Tok) : ∀ st : List Tok, (∀ u ∈ st ++ todo, u.sp = true) →
    st.Pairwise (fun u v => strLe v.name u.name = true ∧ v.name ≠ u.name) →
    (∀ u ∈ st, ∀ t ∈ todo, strLe u.name t.name = true) →
    todo.Pairwise (fun u v => strLe u.name v.name = true) →
    (todo.foldl put st).Pairwise (fun u v => strLe v.name u.name = true ∧ v.name ≠ u.name) := by
  induction todo with
  | nil => intro st _ h _ _; exact h
  | cons t todo ih =>
    intro st hsp hst hle hp
    rw [List.pairwise_cons] at hp
    rw [List.foldl_cons]
    cases st with
    | nil =>
      exact ih [t] (by intro u hu; exact hsp u (by simpa using hu)) (by simp)
        (by intro u hu v hv; rw [List.mem_singleton] at hu; subst hu; exact hp.1 v hv) hp.2
    | cons x r =>
      rw [List.pairwise_cons] at hst
      simp only [put]
      split
      · split
        · exact ih r (by intro u hu; apply hsp; rcases List.mem_append.mp hu with h | h <;> simp [h]) hst.2
            (fun u hu v hv => hle u (by simp [hu]) v (by simp [hv])) hp.2
        · refine ih _ ?_ ?_ ?_ hp.2
          · intro u hu
            rcases List.mem_append.mp hu with h | h
            · rcases List.mem_cons.mp h with rfl | h
              · exact hsp x (by simp)
              · exact hsp u (by simp [h])
            · exact hsp u (by simp [h])
          · rw [List.pairwise_cons]; exact hst
          · intro u hu v hv
            rcases List.mem_cons.mp hu with rfl | h
            · exact hle x (by simp) v (by simp [hv])
            · exact hle u (by simp [h]) v (by simp [hv])
      · rename_i hns
        have hne : x.name ≠ t.name := by
          intro e
          exact hns (same_iff.mpr ⟨by rw [hsp t (by simp), hsp x (by simp)], e.symm⟩)
        refine ih _ ?_ ?_ ?_ hp.2
        · intro u hu
          apply hsp
          rcases List.mem_append.mp hu with h | h
          · rcases List.mem_cons.mp h with rfl | h
            · simp
            · rcases List.mem_cons.mp h with rfl | h <;> simp_all
          · simp [h]
        · rw [List.pairwise_cons, List.pairwise_cons]
          refine ⟨?_, hst⟩
          intro v hv
          rcases List.mem_cons.mp hv with rfl | hv
          · exact ⟨hle v (by simp) t (by simp), hne⟩
          · refine ⟨hle v (by simp [hv]) t (by simp), ?_⟩
            intro e
            have h1 := hst.1 v hv
            apply h1.2
            refine Verif.Equation.strLe_antisymm _ _ h1.1 ?_
            rw [e]
            exact hle x (by simp) t (by simp)
        · intro u hu v hv
          rcases List.mem_cons.mp hu with rfl | h
          · exact hp.1 v hv
          · exact hle u (by rcases List.mem_cons.mp h with rfl | h <;> simp_all) v (by simp [hv])

/-! ### The whole function -/

/-- A reaction with a single entry has a small entry behind it. -/
def Settled (Q : ℚ → Prop) (t : Trxn) : Prop :=
  t.live.length = 1 → ∃ x xs, t.spare = x :: xs ∧ small x.coef = true ∧ Q x.coef

/-- With at least two entries, `trxn_combine` sorts and makes the pass. -/
theorem combine_two {Q : ℚ → Prop} (hQ : Closed Q) {sort : List Tok → List Tok} (hs : Sorts sort)
    (t : Trxn) {h : Tok} {r : List Tok} (hl : t.live = h :: r) (hr : r ≠ []) (hq : ∀ u ∈ r, Q u.coef) : ∃ s1 sr sp', sort r = s1 :: sr ∧
      combine sort t = .ok ⟨h :: (sr.foldl put [s1]).reverse, sp', t.logk⟩ ∧
      (sr.foldl put [s1] = [] → ∃ x xs, sp' = x :: xs ∧ small x.coef = true ∧ Q x.coef) ∧
      (sr.foldl put [s1]).length + sp'.length = r.length + t.spare.length := by
  have hp := (hs r).1
  cases hsr : sort r with
  | nil => rw [hsr] at hp; exact absurd hp.symm.eq_nil hr
  | cons s1 sr =>
    rw [hsr] at hp
    have hlen : r.length = sr.length + 1 := by rw [← hp.length_eq]; rfl
    obtain ⟨m, h1, h2, h3⟩ := loop_spec hQ h t.spare sr [s1] []
      (fun u hu => hq u (hp.subset (by simpa using hu))) (by intro h; cases h)
    refine ⟨s1, sr, m ++ t.spare, rfl, ?_, ?_, ?_⟩
    · unfold combine
      rw [hl]
      dsimp only
      rw [hsr, hlen]
      have e : h :: s1 :: sr ++ t.spare = h :: ([s1].reverse ++ ([] ++ (sr ++ t.spare))) := by simp
      have e2 : (2 : Nat) = 1 + [s1].length + ([] : List Tok).length := rfl
      rw [Nat.add_sub_cancel, e, e2]
      have e3 : loop sr.length (h :: ([s1].reverse ++ ([] ++ (sr ++ t.spare)))) 1
          (1 + [s1].length + ([] : List Tok).length) = some (h :: ((sr.foldl put [s1]).reverse ++
            (m ++ t.spare)), (sr.foldl put [s1]).length) := h1
      rw [e3]
      dsimp only
      rw [if_neg (by simp)]
      congr 2
      · simp [List.take_append]
      · simp [List.drop_append]
    · intro he
      obtain ⟨x, xs, hx, hc⟩ := h2 he
      exact ⟨x, xs ++ t.spare, by rw [hx]; rfl, hc⟩
    · simp only [List.length_append, List.length_cons, List.length_nil] at h3 ⊢
      omega

/-- With one entry, the entry behind it is taken in. -/
theorem combine_one {sort : List Tok → List Tok} (hs : Sorts sort) (t : Trxn) {h : Tok}
    (hl : t.live = [h]) : combine sort t = match t.spare with
      | [] => .ub
      | x :: xs => .ok ⟨[h, x], xs, t.logk⟩ := by
  have hn : sort [] = [] := (hs []).1.eq_nil
  unfold combine
  rw [hl]
  dsimp only
  rw [hn]
  cases t.spare <;> rfl

/-- What `trxn_combine` keeps. -/
theorem combine_near {Q : ℚ → Prop} (hQ : Closed Q) {sort : List Tok → List Tok} (hs : Sorts sort)
    {t t' : Trxn} (h : combine sort t = .ok t') (hq : ∀ u ∈ t.live, Q u.coef) (hset : Settled Q t) : ∃ D : List Tok,
      2 * D.length ≤ t.live.length + 1 ∧ (2 ≤ t.live.length → 2 * D.length + t'.live.length ≤ t.live.length) ∧
      (∀ d ∈ D, |d.coef| ≤ tol) ∧
      (∀ u ∈ D ++ t'.live, Q u.coef) ∧
      (∀ w, tot w t'.live + tot w D = tot w t.live) ∧ t'.logk = t.logk := by
  cases hl : t.live with
  | nil => unfold combine at h; rw [hl] at h; cases h
  | cons a r =>
    by_cases hr : r = []
    · subst hr
      rw [combine_one hs t hl] at h
      obtain ⟨x, xs, hx, hc, hx'⟩ := hset (by rw [hl]; rfl)
      rw [hx] at h
      dsimp only at h
      cases h
      refine ⟨[{ x with coef := -x.coef }], by simp, by simp, ?_, ?_, ?_, rfl⟩
      · intro d hd
        rw [List.mem_singleton] at hd
        subst hd
        simp only [abs_neg]
        exact (small_iff _).mp hc
      · intro u hu
        simp only [List.cons_append, List.nil_append, List.mem_cons, List.not_mem_nil, or_false] at hu
        rcases hu with rfl | rfl | rfl
        · exact hQ.neg _ hx'
        · exact hq u (by rw [hl]; simp)
        · exact hx'
      · intro w
        simp only [tot_cons]
        simp [tot]
    · obtain ⟨s1, sr, sp', h1, h2, h3, h4⟩ := combine_two hQ hs t hl hr (fun u hu => hq u (by rw [hl]; simp [hu]))
      rw [h2] at h
      cases h
      have hp := (hs r).1
      rw [h1] at hp
      obtain ⟨D, d1, d2, d3, d4⟩ := pass_tot hQ sr [s1]
      have hlen : r.length = sr.length + 1 := by rw [← hp.length_eq]; rfl
      refine ⟨D, ?_, ?_, d2, ?_, ?_, rfl⟩
      · simp only [List.length_cons, List.length_nil] at d1 ⊢; omega
      · intro _
        simp only [List.length_cons, List.length_nil, List.length_reverse] at d1 ⊢; omega
      · intro u hu
        have hd := d3 (by
          intro v hv
          apply hq
          have : v ∈ r := hp.subset (by simpa using hv)
          rw [hl]
          simp [this])
        rcases List.mem_append.mp hu with hu | hu
        · exact hd u (by simp [hu])
        · rcases List.mem_cons.mp hu with rfl | hu
          · exact hq u (by rw [hl]; simp)
          · exact hd u (by simp at hu; simp [hu])
      · intro w
        rw [tot_cons, tot_cons, tot_perm w (List.reverse_perm _), add_assoc, d4 w, ← tot_append,
          show [s1] ++ sr = s1 :: sr from rfl, tot_perm w hp]

/-- After `trxn_combine`: the first entry is the same, no new names, the array is settled and no shorter. -/
theorem combine_keeps {Q : ℚ → Prop} (hQ : Closed Q) {sort : List Tok → List Tok} (hs : Sorts sort)
    {t t' : Trxn} (h : combine sort t = .ok t') (hq : ∀ u ∈ t.live, Q u.coef) (hset : Settled Q t) :
    t'.live.head? = t.live.head? ∧ t'.live ≠ [] ∧ Settled Q t' ∧
      (2 ≤ t.live.length → ∀ u ∈ t'.live.tail, ∃ v ∈ t.live.tail, v.sp = u.sp ∧ v.name = u.name) ∧
      (∀ u ∈ t'.live.tail, (∃ v ∈ t.live.tail, v.sp = u.sp ∧ v.name = u.name) ∨
        (small u.coef = true ∧ t.live.length = 1)) ∧
      t'.live.length + t'.spare.length = t.live.length + t.spare.length := by
  cases hl : t.live with
  | nil => unfold combine at h; rw [hl] at h; cases h
  | cons a r =>
    by_cases hr : r = []
    · subst hr
      rw [combine_one hs t hl] at h
      obtain ⟨x, xs, hx, hc, hx'⟩ := hset (by rw [hl]; rfl)
      rw [hx] at h
      dsimp only at h
      cases h
      refine ⟨rfl, by simp, by intro h; simp at h, by simp, ?_, by rw [hx]; simp; omega⟩
      intro u hu
      simp only [List.tail_cons, List.mem_singleton] at hu
      subst hu
      exact Or.inr ⟨hc, rfl⟩
    · obtain ⟨s1, sr, sp', h1, h2, h3, h4⟩ := combine_two hQ hs t hl hr (fun u hu => hq u (by rw [hl]; simp [hu]))
      rw [h2] at h
      cases h
      have hp := (hs r).1
      rw [h1] at hp
      have hmem : ∀ u ∈ (sr.foldl put [s1]).reverse, ∃ v ∈ r, v.sp = u.sp ∧ v.name = u.name := by
        intro u hu
        obtain ⟨v, hv, e⟩ := pass_mem sr [s1] u (by simpa using hu)
        exact ⟨v, hp.subset (by simpa using hv), e⟩
      refine ⟨rfl, by simp, ?_, fun _ => hmem, fun u hu => Or.inl (hmem u hu), ?_⟩
      · intro hlen
        simp only [List.length_cons, List.length_reverse] at hlen
        exact h3 (List.length_eq_zero_iff.mp (by omega))
      · simp only [List.length_cons, List.length_reverse]; omega

theorem closed_true : Closed (fun _ => True) :=
  ⟨fun _ _ _ _ => trivial, fun _ _ => trivial⟩

/-- After `trxn_combine` of at least two entries, all of them species but the first: the entries behind
the first one are sorted and no species occurs twice. -/
theorem combine_distinct {sort : List Tok → List Tok} (hs : Sorts sort) {t t' : Trxn}
    (h : combine sort t = .ok t') (h2 : 2 ≤ t.live.length) (hsp : ∀ u ∈ t.live.tail, u.sp = true) :
    t'.live.tail.Pairwise (fun u v => strLe u.name v.name = true ∧ u.name ≠ v.name) := by
  cases hl : t.live with
  | nil => rw [hl] at h2; simp at h2
  | cons a r =>
    have hr : r ≠ [] := by rintro rfl; rw [hl] at h2; simp at h2
    obtain ⟨s1, sr, sp', h1, h2', h3, h4⟩ := combine_two closed_true hs t hl hr (fun _ _ => trivial)
    rw [h2'] at h
    cases h
    have hp := (hs r).1
    have hso := (hs r).2
    rw [h1] at hp hso
    rw [List.pairwise_cons] at hso
    rw [hl] at hsp
    have := pass_sorted sr [s1] (by intro u hu; exact hsp u (hp.subset (by simpa using hu))) (by simp)
      (by intro u hu v hv; rw [List.mem_singleton] at hu; subst hu; exact hso.1 v hv) hso.2
    simpa [List.pairwise_reverse] using this

end Verif.Reaction
