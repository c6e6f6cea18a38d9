import Verif.Python.SetModel
import Verif.BMI.Cases

/-! # Setting variables from Python -/

namespace Verif.Python

open Verif.BMI

variable {σ : Type}

/-! ## Lemmas -/

/-- The state in which the call finds the variable. -/
theorem ensured {m : BMI.Mod σ} (hm : Lawful m) {s : S σ} (hr : Reach m s) (v : Var) :
    ∃ s1, ensure m v s = .ok s1 () ∧ Post m s.st s s1 ∧ (v.stays = true → (s1.va v).init = true) := by
  obtain ⟨s1, a, e, h1, h2, -⟩ := (ensure_sat (u := False) (v := v) (Q := fun _ => False) (inv_of_reach hm hr) hm).get
  exact ⟨s1, e, h1, h2⟩

/-- Setting it up once more changes nothing. -/
theorem ensure_again {m : BMI.Mod σ} {v : Var} {s : S σ} (h : (s.va v).init = true) : ensure m v s = .ok s () := by
  unfold ensure
  rw [if_pos h]

theorem twice {m : BMI.Mod σ} {v : Var} {s s1 : S σ} (h : (s1.va v).init = true) (e : ensure m v s = .ok s1 ()) :
    (∀ l, setValueVec m v l s1 = setValueVec m v l s) ∧ ∀ x, setValueNum m v x s1 = setValueNum m v x s := by
  refine ⟨fun l => ?_, fun x => ?_⟩
  · unfold setValueVec
    rw [e, ensure_again h]
  · unfold setValueNum
    rw [e, ensure_again h]

theorem grid_of {v : Var} (hv : v.flags.1 = true) (hvec : v.isVec = true) : v.grid = true ∧ v.stays = true ∧ v ≠ .SelectedOutput := by
  cases v <;> simp [Var.flags, Var.isVec, Var.ctype, Var.scalar, Var.grid, Var.stays] at hv hvec ⊢

theorem scalar_stays {v : Var} (hs : v.scalar = true) : v.stays = true := by
  cases v <;> simp [Var.scalar, Var.stays] at hs ⊢

/-! ## Theorems -/

/-- **C213, part.** After `initialize`, for a listed input variable: an array with one value for each item, at least two, or the one number of
`Time` and `TimeStep`, is given to the setter of the module, which is then as after that setter. Other lengths of an array change
nothing in the module.

Missing: arrays with one item, `array_of_one_lost`. -/
theorem set_partial {m : BMI.Mod σ} (hm : Lawful m) {s : S σ} (hr : Reach m s) (hb : Ready s) {v : Var}
    (hv : v.flags.1 = true) :
    (∀ l, v.isVec = true → 1 < m.size s.st v → l.length = m.size s.st v →
      ∃ s', setDouble true m v l s = .ok s' () ∧ s'.st = m.setVec s.st v l) ∧
    (∀ l, v.isVec = true → 1 < m.size s.st v → l.length ≠ m.size s.st v →
      ∃ s', setDouble true m v l s = .ok s' () ∧ s'.st = s.st) ∧
    (∀ x l, v.scalar = true → ∃ s', setDouble true m v (x :: l) s = .ok s' () ∧ s'.st = m.setNum s.st v x) := by
  obtain ⟨s1, e, h1, h2⟩ := ensured hm hr v
  obtain ⟨g1, g2, -⟩ := set_listed hm hr hb hv
  have arr : ∀ l, v.isVec = true → 1 < m.size s.st v → setDouble true m v l s = setValueVec m v l s := by
    intro l hvec h1'
    obtain ⟨-, hst, hne⟩ := grid_of hv hvec
    have hi := h2 hst
    obtain ⟨-, -, hit, hnb⟩ := (h1.inv v).shape hvec hne hi
    rw [h1.st] at hnb
    unfold setDouble
    rw [if_neg (by decide), e, R.bind_ok, if_neg (by omega), if_neg (by omega), if_pos (by omega)]
    exact (twice hi e).1 l
  refine ⟨fun l hvec h hl => ?_, fun l hvec h hl => ?_, fun x l hs => ?_⟩
  · rw [arr l hvec h]
    exact g1 l hvec hl
  · rw [arr l hvec h]
    obtain ⟨hg, hst, hne⟩ := grid_of hv hvec
    obtain ⟨-, hd, -⟩ := (h1.inv v).shape hvec hne (h2 hst)
    rw [h1.st] at hd
    refine ⟨s1, ?_, h1.st⟩
    unfold setValueVec
    rw [e, R.bind_ok, if_pos (by omega)]
  · have hi := h2 (scalar_stays hs)
    obtain ⟨-, hit, hnb⟩ := (h1.inv v).one (.inr (.inr hs)) hi
    have : setDouble true m v (x :: l) s = setValueNum m v x s := by
      unfold setDouble
      rw [if_neg (by decide), e, R.bind_ok, if_neg hit, if_pos hnb]
      exact (twice hi e).2 x
    rw [this]
    exact g2 x hs

/-- **C213, violated.** For an array with one item, as for a grid of one cell, the number given has no effect: whatever it is, the module is left in
the same state. -/
theorem array_of_one_lost {m : BMI.Mod σ} (hm : Lawful m) {s : S σ} (hr : Reach m s) (hb : Ready s) {v : Var}
    (hv : v.flags.1 = true) (hvec : v.isVec = true) (h1 : m.size s.st v = 1) :
    ∃ st', ∀ x s', setDouble true m v [x] s = .ok s' () → s'.st = st' := by
  obtain ⟨s1, e, p1, p2⟩ := ensured hm hr v
  obtain ⟨hg, hst, hne⟩ := grid_of hv hvec
  have hi := p2 hst
  obtain ⟨-, -, hit, hnb⟩ := (p1.inv v).shape hvec hne hi
  rw [p1.st, h1] at hnb
  refine ⟨m.setVec s.st v s1.ex.data, fun x s' h => ?_⟩
  unfold setDouble at h
  rw [if_neg (by decide), e, R.bind_ok, if_neg (by omega), if_pos (by omega)] at h
  dsimp only at h
  unfold setValueNum at h
  rw [ensure_again hi, R.bind_ok] at h
  have hinv : Inv m { s1 with ex := { s1.ex with dvar := x } } := p1.inv.congr rfl rfl rfl rfl
  have k := varFn_set_sat (u := True) (v := v) hinv hm (fun _ => hi) (.inl trivial) (.inl trivial)
  rw [h] at k
  rw [k.1.st]
  cases v <;> simp [Var.isVec, Var.ctype, Var.scalar] at hvec <;> simp [stored, Var.ctype, Var.scalar, p1.st]

/-- The size found for the prefix is its length. -/
theorem prefix_ensured {m : BMI.Mod σ} (hm : Lawful m) {s : S σ} (hr : Reach m s) :
    ∃ s1, ensure m .FilePrefix s = .ok s1 () ∧ Post m s.st s s1 ∧
      (s1.va .FilePrefix).itemsize = (m.str s.st .FilePrefix).length := by
  obtain ⟨s1, e, h1, -⟩ := ensured hm hr .FilePrefix
  refine ⟨s1, e, h1, ?_⟩
  have hl := (inv_of_reach hm hr .FilePrefix).live rfl
  unfold ensure at e
  rw [if_neg (by rw [hl]; decide), varFn_plain _ _ _ (by decide)] at e
  unfold plain plainBody at e
  rw [if_neg (by rw [allows_info]; decide)] at e
  simp only [R.bind_ok, R.ok.injEq, and_true] at e
  rw [← e]
  simp [finish, setup, enter, S.upd, Variant.basic]

/-- **C214, part.** After `initialize`, a file prefix that is not empty can be replaced by any other.

Missing: an empty prefix, `prefix_stuck`. -/
theorem prefix_partial {m : BMI.Mod σ} (hm : Lawful m) {s : S σ} (hr : Reach m s) (hb : Ready s)
    (hp : m.str s.st .FilePrefix ≠ []) (x : List Char) (l : List (List Char)) :
    ∃ s', setPrefix true m (x :: l) s = .ok s' () ∧ s'.st = m.setStr s.st .FilePrefix x := by
  obtain ⟨s1, e, h1, h2⟩ := prefix_ensured hm hr
  have hn : (s1.va .FilePrefix).itemsize ≠ 0 := by
    rw [h2]
    exact fun h => hp (List.length_eq_zero_iff.mp h)
  obtain ⟨s', a, e', ⟨y, hy⟩, -⟩ := sat_ok (setEx_sat (u := False) (v := .FilePrefix) h1.inv hm (fun e => { e with str := x })
    (.inr (h1.ready hb)) (.inr fun hc => by cases hc)) (fun s hs => by simp [Var.flags] at hs)
  refine ⟨s', ?_, ?_⟩
  · unfold setPrefix
    rw [if_neg (by decide), e, R.bind_ok, if_neg hn]
    exact e'
  · rw [hy.st, h1.st]
    rfl

/-- **C214, violated.** Once the prefix is empty no call can set it: the division of the sizes is by zero. -/
theorem prefix_stuck {m : BMI.Mod σ} (hm : Lawful m) {s : S σ} (hr : Reach m s) (hp : m.str s.st .FilePrefix = [])
    (l : List (List Char)) : ∃ s', setPrefix true m l s = .threw s' ∧ s'.st = s.st := by
  obtain ⟨s1, e, h1, h2⟩ := prefix_ensured hm hr
  refine ⟨s1, ?_, h1.st⟩
  unfold setPrefix
  rw [if_neg (by decide), e, R.bind_ok, if_pos (by rw [h2, hp]; rfl)]

namespace Demo

/-- Two cells: the value arrives. One cell: it does not. -/
theorem one_and_two : ((setDouble true (toy 2) .Porosity [3, 3] ((exec (toy 2) (find 1) s0).state.getD s0)).state.map (·.st.a)) = some 3 ∧
    ((setDouble true (toy 1) .Porosity [3] ((exec (toy 1) (find 1) s0).state.getD s0)).state.map (·.st.a)) ≠ some 3 ∧
    ((setDouble true (toy 1) .TimeStep [3] s0).state.map (·.st.dt)) = some 3 :=
  ⟨by decide +kernel, by decide +kernel, by decide +kernel⟩

/-- The state used is reached and ready, and has arrays of one item. -/
theorem reached : Reach (toy 1) ((exec (toy 1) (find 1) s0).state.getD s0) ∧
    Ready ((exec (toy 1) (find 1) s0).state.getD s0) ∧
    (toy 1).size ((exec (toy 1) (find 1) s0).state.getD s0).st .Porosity = 1 := by
  refine ⟨?_, ⟨by decide +kernel, by decide +kernel⟩, by decide +kernel⟩
  cases h : exec (toy 1) (find 1) s0 with
  | ok s a => exact .step (find 1) (.start _) trivial (.inr ⟨rfl, rfl⟩) (.inl h)
  | threw s => exact .step (find 1) (.start _) trivial (.inr ⟨rfl, rfl⟩) (.inr h)
  | ub => exact .start _

/-- The prefix is replaced, then emptied, then kept. -/
theorem prefix_case : ((setPrefix true (toy 2) [['a', 'b']] s0).state.map (·.st.pre)) = some ['a', 'b'] ∧
    (((setPrefix true (toy 2) [[]] s0).bind fun s _ => setPrefix true (toy 2) [['x']] s).state.map (·.st.pre)) = some [] :=
  ⟨by decide +kernel, by decide +kernel⟩

end Demo

end Verif.Python
