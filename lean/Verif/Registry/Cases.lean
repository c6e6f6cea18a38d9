import Verif.Registry.Threads

/-! # Concrete cases for the registry theorems -/

namespace Verif.Registry

/-- Two modules are made, the first destroyed, a construction fails, another is made. -/
def caseTrace : Trace :=
  [(.create ⟨true, true⟩ true, .made 3), (.create ⟨false, true⟩ false, .made (-1)),
   (.destroy 0, .code .ok), (.create ⟨false, true⟩ true, .made 1),
   (.create ⟨false, true⟩ true, .made 0)]

/-- The history happens. -/
theorem caseTrace_runs :
    Runs caseTrace ⟨4, [(1, ⟨false, true⟩), (3, ⟨true, true⟩)], false⟩ :=
  ((((Runs.nil.cons (s' := ⟨1, [(0, ⟨false, true⟩)], false⟩) (by decide +kernel)).cons
    (s' := ⟨2, [(0, ⟨false, true⟩), (1, ⟨false, true⟩)], false⟩)
    (by decide +kernel)).cons (s' := ⟨2, [(1, ⟨false, true⟩)], false⟩) (by decide +kernel)).cons
    (s' := ⟨3, [(1, ⟨false, true⟩)], false⟩) (by decide +kernel)).cons (by decide +kernel)

/-- The hypotheses of `ids_never_reused` hold: modules 1 and 3 are alive, 0 is not. -/
example : made caseTrace < 2 ^ 31 ∧ IntArgs caseTrace ∧ issued caseTrace = [3, 1, 0] ∧
    Live 1 ⟨false, true⟩ caseTrace ∧ Live 3 ⟨true, true⟩ caseTrace ∧
    (∀ o, ¬ Live 0 o caseTrace) := by
  refine ⟨by decide, by simp [caseTrace, IntArgs, IsInt], rfl, by simp [caseTrace, Live],
    by simp [caseTrace, Live], fun o => by simp [caseTrace, Live]⟩

/-- `cleanupBMI_hangs` and `destroyAll_empties`: all living modules were made with `new`. -/
example : ∀ id o, Live id o caseTrace → o.heap = true := by
  intro id o h
  simp only [caseTrace, Live, Bool.false_eq_true, false_and, false_or, true_and, or_false] at h
  rcases h with ⟨_, rfl⟩ | ⟨_, ⟨_, rfl⟩ | ⟨_, rfl⟩⟩ <;> rfl

/-- `cleanupBMI_partial`: no BMI instance. -/
example : ∀ id o, Live id o (caseTrace.drop 1) → o.bmi = false := by
  intro id o h
  simp only [caseTrace, List.drop_succ_cons, List.drop_zero, Live, Bool.false_eq_true, false_and,
    false_or, true_and, or_false] at h
  rcases h with ⟨_, ⟨_, rfl⟩ | ⟨_, rfl⟩⟩ <;> rfl

/-- `one_destroyer_partial` and `creators_partial`: such programs exist. -/
example : (∀ n c, ([[.destroy 0, .create ⟨false, true⟩], [.get 0], [.get 1]] : List (List Call))[n]? =
    some c → n ≠ 0 → OnlyGets c) := by
  intro n c h hn
  match n, h, hn with
  | 1, h, _ => simp at h; subst h; exact fun x hx => ⟨0, by simpa using hx⟩
  | 2, h, _ => simp at h; subst h; exact fun x hx => ⟨1, by simpa using hx⟩
  | n + 3, h, _ => simp at h

example : play ⟨⟨1, [(0, ⟨false, true⟩)], false⟩,
    fresh [[.destroy 0, .create ⟨false, true⟩], [.get 0]]⟩ [0, 0, 0, 1, 0] = .ok
    ⟨⟨2, [(1, ⟨false, true⟩)], false⟩,
      [⟨.idle, [], [.made 1, .code .ok]⟩, ⟨.idle, [], [.found none]⟩]⟩ := rfl

/-- `id_wraps`: histories with any number of constructions up to 2^31 exist. -/
theorem many_constructions (n : Nat) (hn : n ≤ 2 ^ 31) :
    ∃ t s, Runs t s ∧ made t = n ∧ IntArgs t := by
  induction n with
  | zero => exact ⟨[], start, .nil, rfl, trivial⟩
  | succ n ih =>
    obtain ⟨t, s, hr, hm, ha⟩ := ih (by omega)
    have hi := inv_of_runs hr (by omega) ha
    exact ⟨(.create ⟨false, true⟩ true, .made (toInt s.next)) :: t, _, hr.cons (by
      simp only [exec, create, ctor_eq hi.unlocked, Res.ok_bind, if_true]; exact rfl),
      by simp only [made, hm], ha⟩

end Verif.Registry
