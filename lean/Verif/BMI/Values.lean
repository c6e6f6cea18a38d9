import Verif.BMI.Runs

/-!
# Values read and refreshed
-/

namespace Verif.BMI

variable {σ : Type}

/-- The state before the end of the `*_Var` function with task `GetVar`. -/
theorem getVar_eq {m : Mod σ} {v : Var} {s : S σ} (h : Inv m s) (hm : Lawful m)
    (hv : v.flags.2.1 = true) :
    ∃ s3 : S σ, varFn m .getVar v s = .ok (finish v s3) () ∧
      s3.ex = (fetched m v (setup m v (enter v s))).ex ∧
      s3.va = (fetched m v (setup m v (enter v s))).va := by
  rw [varFn_plain _ _ _ (by decide)]
  have h2 := begin_post hm v h
  have hf := fetch_ok hm h2.inv (fun hs => setup_init m v (enter v s) hs)
  have ha : ¬ v.allows .getVar = false := by rw [allows_getVar, hv]; decide
  unfold plain plainBody
  rw [if_neg ha]
  cases v <;> simp only [hf, R.bind_ok, R.ok.injEq, and_true] <;>
    exact ⟨_, rfl, rfl, rfl⟩

/-- The value of `v` in the exchange object. -/
def readEx (v : Var) (e : Ex) : Value :=
  match v.ctype with
  | .int => .int e.ivar
  | .bool => .bool e.bvar
  | .string => .chars e.str
  | .strings => .strs e.strs
  | .double => if v.scalar then .num e.dvar else .vec e.data

theorem fetched_value (m : Mod σ) (v : Var) (s s3 : S σ) (h1 : s3.ex = (fetched m v s).ex)
    (h2 : s3.va = (fetched m v s).va) : readEx v (finish v s3).ex = current m s.st v := by
  by_cases hg : v.grid = true
  · have hct : v.ctype = .double ∧ v.scalar = false := by
      cases v <;> simp [Var.grid, Var.isVec, Var.ctype, Var.scalar] at hg ⊢
    simp [readEx, current, hct.1, hct.2, finish, h1, fetched, hg]
  · cases v <;> simp [Var.grid, Var.isVec, Var.ctype, Var.scalar] at hg <;>
      simp [readEx, current, finish, h1, h2, fetched, Var.grid, Var.isVec, Var.ctype, Var.scalar,
        fetch]

/-- Reading a variable that has a getter. -/
theorem get_value {m : Mod σ} {v : Var} {s : S σ} (h : Inv m s) (hm : Lawful m)
    (hv : v.flags.2.1 = true) :
    ∃ s', ((ensure m v s).bind fun s _ => varFn m .getVar v s) = .ok s' () ∧
      readEx v s'.ex = current m s.st v := by
  have he := ensure_sat (u := False) (v := v) (Q := fun _ => False) h hm
  cases e : ensure m v s with
  | ub => rw [e] at he; exact he.elim
  | threw s1 => rw [e] at he; exact he.elim
  | ok s1 a =>
    rw [e] at he
    obtain ⟨s3, e3, h1, h2⟩ := getVar_eq he.1.inv hm hv
    refine ⟨_, e3, ?_⟩
    rw [fetched_value m v _ s3 h1 h2, (begin_post hm v he.1.inv).st, he.1.st]

theorem get_refuse {m : Mod σ} {v : Var} {s : S σ} (h : Inv m s) (hm : Lawful m)
    (hv : v.flags.2.1 = false) :
    ∃ s', ((ensure m v s).bind fun s _ => varFn m .getVar v s) = .threw s' ∧ s'.st = s.st := by
  have hg := get_sat (u := False) (v := v) h hm
  cases e : (ensure m v s).bind fun s _ => varFn m .getVar v s with
  | ub => rw [e] at hg; exact hg.elim
  | ok s1 a => rw [e] at hg; rw [hg.2] at hv; cases hv
  | threw s1 => rw [e] at hg; exact ⟨s1, rfl, hg.1.st⟩

/-- `SetDoubleVector` with all values. -/
theorem refresh_cur {m : Mod σ} {u : Prop} {Q : S σ → Prop} {v : Var} {s : S σ}
    (h : Inv m s) (hm : Lawful m) (hv : v.grid = true) (hi : (s.va v).init = true) :
    (refresh m v s).Sat u (fun s' _ => Post m s.st s s' ∧ Cur m s' v ∧
      ∀ w, w ≠ v → s'.va w = s.va w) Q := by
  have hv' : v.isVec = true ∧ v ≠ .SelectedOutput := by simpa [Var.grid] using hv
  have hct : v.ctype = .double ∧ v.scalar = false := by
    cases v <;> simp [Var.isVec, Var.ctype, Var.scalar] at hv' ⊢
  have hl : (m.vec s.st v).length = (s.va v).buf.data.length := by
    rw [hm.len _ _ hv'.1, ((h v).shape hv'.1 hv'.2 hi).1]
  have hp := refresh_sat (u := False) (Q := fun _ => False) h hm hv (.inr hi)
  unfold refresh copyTo at hp ⊢
  rw [copy_exact _ _ hl] at hp ⊢
  exact ⟨hp.1, by simp [Cur, hct.1, hct.2], fun w hw => upd_other _ _ _ _ hw⟩

theorem fetch_cur {m : Mod σ} {u : Prop} {Q : S σ → Prop} {v : Var} {s : S σ}
    (h : Inv m s) (hm : Lawful m) (hv : v.flags.2.2 = true) (hi : (s.va v).init = true) :
    (fetch m v s).Sat u (fun s' _ => Post m s.st s s' ∧ Cur m s' v ∧
      ∀ w, w ≠ v → s'.va w = s.va w) Q := by
  refine (fetch_sat h hm (fun _ => hi)).mono id (fun s' _ h' => ⟨h'.1, ?_, ?_⟩) fun _ h => h
  · rw [h'.2]; exact fetched_cur m v s hv
  · rw [h'.2]; exact (fetched_frame m v s).2.2.2.2.2.1

/-- What the module's setter for `v` has to refresh. -/
def Var.touches : Var → List Var
  | .Concentrations => [.Concentrations]
  | .DensityUser => [.Concentrations, .DensityCalculated]
  | .Porosity => [.Porosity, .Concentrations, .SaturationCalculated]
  | .Pressure => [.Pressure]
  | .SaturationUser => [.Concentrations]
  | .SelectedOutputOn => [.SelectedOutputOn]
  | .Temperature => [.Temperature]
  | .Time => [.Time]
  | .TimeStep => [.TimeStep]
  | _ => []

theorem Cur.finish {m : Mod σ} {v w : Var} {s : S σ} (h : Cur m s w) : Cur m (finish v s) w := h

theorem plain_cur {m : Mod σ} {u : Prop} {Q : S σ → Prop} {v a : Var} {s : S σ}
    (h : Inv m s) (hm : Lawful m) (hr : Ready s) (ha : v.announces = some a) :
    (plain m .rmUpdate a s).Sat u (fun s' _ => ∀ w ∈ v.touches, Cur m s' w) Q := by
  have h1 := begin_post hm a h
  unfold plain
  refine R.Sat.bind (P := fun s' _ => ∀ w ∈ v.touches, Cur m s' w) ?_ fun s2 _ h2 => h2
  set t := setup m a (enter a s) with ht
  have hr1 : Ready t := h1.ready hr
  have hi : a.stays = true → (t.va a).init = true := fun hs => setup_init m a _ hs
  unfold plainBody
  rw [if_neg (by rw [announces_allows ha]; decide)]
  have one : ∀ b : Var, b = a → b.flags.2.2 = true → b.stays = true →
      (fetch m b t).Sat u (fun s' _ => ∀ w ∈ [b], Cur m s' w) Q := by
    rintro b rfl hf hs
    refine (fetch_cur h1.inv hm hf (hi hs)).mono id (fun s' _ h' => ?_) fun _ h => h
    intro w hw; rw [List.mem_singleton.1 hw]; exact h'.2.1
  cases v <;> simp [Var.announces] at ha <;> subst ha <;> simp only [Var.touches]
  · exact one _ rfl rfl rfl
  · -- DensityCalculated
    refine R.Sat.bind (refresh_cur h1.inv hm rfl hr1.1) fun s2 _ ⟨h2, c2, f2⟩ => ?_
    refine (fetch_cur h2.inv hm rfl (h2.mono _ (hi rfl))).mono id (fun s3 _ ⟨h3, c3, f3⟩ => ?_)
      fun _ h => h
    intro w hw
    rcases List.mem_cons.1 hw with rfl | hw
    · exact c2.frame h3.st (f3 _ (by decide))
    · rw [List.mem_singleton.1 hw]; exact c3
  · -- SaturationUser
    refine (refresh_cur h1.inv hm rfl hr1.1).mono id (fun s2 _ ⟨h2, c2, f2⟩ => ?_) fun _ h => h
    intro w hw; rw [List.mem_singleton.1 hw]; exact c2
  · exact one _ rfl rfl rfl
  · exact one _ rfl rfl rfl
  · -- Porosity
    refine R.Sat.bind (fetch_cur h1.inv hm rfl (hi rfl)) fun s2 _ ⟨h2, c2, f2⟩ => ?_
    refine R.Sat.bind (refresh_cur h2.inv hm rfl (h2.mono _ hr1.1)) fun s3 _ ⟨h3, c3, f3⟩ => ?_
    refine (refresh_cur h3.inv hm rfl (h3.mono _ (h2.mono _ hr1.2))).mono id
      (fun s4 _ ⟨h4, c4, f4⟩ => ?_) fun _ h => h
    intro w hw
    rcases List.mem_cons.1 hw with rfl | hw
    · exact (c2.frame h3.st (f3 _ (by decide))).frame h4.st (f4 _ (by decide))
    rcases List.mem_cons.1 hw with rfl | hw
    · exact c3.frame h4.st (f4 _ (by decide))
    · rw [List.mem_singleton.1 hw]; exact c4
  · exact one _ rfl rfl rfl
  · exact one _ rfl rfl rfl
  · exact one _ rfl rfl rfl

/-! ### `CurrentVar` -/

theorem varFn_cur {m : Mod σ} {u : Prop} (hu : u) {t : Task} {v : Var} {s : S σ} :
    (varFn m t v s).Sat u (fun s' _ => s'.cur = none) (fun _ => True) := by
  unfold varFn plain
  split
  · cases setBody m v (setup m v (enter v s)) with
    | ok s a => exact rfl
    | threw s => trivial
    | ub => exact hu
  · cases plainBody m t v (setup m v (enter v s)) with
    | ok s a => exact rfl
    | threw s => trivial
    | ub => exact hu

theorem ensure_cur {m : Mod σ} {v : Var} {s : S σ} (h : s.cur = none) :
    (ensure m v s).Sat True (fun s' _ => s'.cur = none) (fun _ => True) := by
  unfold ensure
  split
  · exact h
  · exact varFn_cur trivial

theorem rmSet_cur {m : Mod σ} {v : Var} {st : σ} {s : S σ} (h : s.cur = none) :
    (rmSet m v st s).Sat True (fun s' _ => s'.cur = none) (fun _ => True) := by
  unfold rmSet notify
  split
  · split
    · exact h
    · split
      · exact h
      · rw [← varFn_plain _ _ _ (by decide)]; exact varFn_cur trivial
  · exact h

theorem loop_cur {f : Var → S σ → R σ Unit}
    (hf : ∀ v s, s.cur = none → (f v s).Sat True (fun s' _ => s'.cur = none) (fun _ => True)) :
    ∀ (vs : List Var) (s : S σ), s.cur = none →
      (loop f vs s).Sat True (fun s' _ => s'.cur = none) (fun _ => True)
  | [], _, h => h
  | v :: vs, s, h => by
    rw [loop]
    exact R.Sat.bind (hf v s h) fun s1 _ h1 => loop_cur hf vs s1 h1

theorem names_cur {m : Mod σ} {flag : Variant → Bool} :
    ∀ (vs : List Var) (l : List (List Char)) (s : S σ), s.cur = none →
      (namesLoop m flag vs l s).Sat True (fun s' _ => s'.cur = none) (fun _ => True)
  | [], _, _, h => h
  | v :: vs, l, s, h => by
    rw [namesLoop]
    exact R.Sat.bind (ensure_cur h) fun s1 _ h1 => names_cur vs _ s1 h1

/-- A call that returns leaves no current variable behind. -/
theorem exec_cur {m : Mod σ} (op : Op σ) {s : S σ} (h : s.cur = none) :
    (exec m op s).Sat True (fun s' _ => s'.cur = none) (fun _ => True) := by
  have gets : ∀ {α : Type} (v : Var) (f : Ex → α),
      R.Sat True (fun s' _ => s'.cur = none) (fun _ => True)
        ((ensure m v s).bind fun s _ => (varFn m .getVar v s).bind fun s _ => R.ok s (f s.ex)).drop :=
    fun v f => drop_sat (P := fun s' _ => s'.cur = none) (R.Sat.bind (ensure_cur h) fun s1 _ _ =>
      R.Sat.bind (varFn_cur trivial) fun s2 _ h2 => h2) fun _ _ h => h
  have sets : ∀ (v : Var) (f : Ex → Ex),
      R.Sat True (fun s' _ => s'.cur = none) (fun _ => True)
        ((ensure m v s).bind fun s _ => varFn m .setVar v { s with ex := f s.ex }) :=
    fun v f => R.Sat.bind (ensure_cur h) fun s1 _ _ => varFn_cur trivial
  have vars : ∀ s : S σ, s.cur = none →
      (updateVariables m s).Sat True (fun s' _ => s'.cur = none) (fun _ => True) :=
    fun s h => loop_cur (fun _ _ _ => varFn_cur trivial) _ s h
  cases op with
  | getRaw v =>
    refine drop_sat (P := fun s' _ => s'.cur = none) ?_ fun _ _ h => h
    refine R.Sat.bind (ensure_cur h) fun s1 _ _ => R.Sat.bind (varFn_cur trivial) fun s2 _ h2 => ?_
    split
    · refine R.Sat.bind (ensure_cur h2) fun s3 _ h3 => ?_
      split
      · exact h3
      · trivial
      · trivial
    · split
      · exact h2
      · trivial
      · trivial
  | getVec v => exact gets v (·.data)
  | getNum v => exact gets v (·.dvar)
  | getInt v => exact gets v (·.ivar)
  | getBool v => exact gets v (·.bvar)
  | getStr v => exact gets v (·.str)
  | getStrs v => exact gets v (·.strs)
  | getPtr v =>
    refine drop_sat (P := fun s' _ => s'.cur = none) ?_ fun _ _ h => h
    unfold getValuePtr
    split
    · exact R.Sat.bind (varFn_cur trivial) fun s2 _ h2 => h2
    · exact h
  | setRaw v x =>
    refine R.Sat.bind (ensure_cur h) fun s1 _ _ => ?_
    split
    · exact varFn_cur trivial
    · trivial
    · trivial
  | setVec v l =>
    refine R.Sat.bind (ensure_cur h) fun s1 _ h1 => ?_
    split
    · exact h1
    · exact varFn_cur trivial
  | setNum v x => exact sets v (fun e => { e with dvar := x })
  | setInt v x => exact sets v (fun e => { e with ivar := x })
  | setBool v x => exact sets v (fun e => { e with bvar := x, ctype := some .bool })
  | setStr v x => exact sets v (fun e => { e with str := x })
  | update run =>
    simp only [exec, update]
    split
    · trivial
    · exact R.Sat.bind (rmSet_cur h) fun s1 _ h1 => vars s1 h1
  | updateUntil run t =>
    simp only [exec, updateUntil]
    split
    · refine R.Sat.bind (rmSet_cur h) fun s1 _ h1 => ?_
      split
      · trivial
      · exact R.Sat.bind (rmSet_cur h1) fun s1 _ h1 => vars s1 h1
    · exact h
  | rmSet v f => exact rmSet_cur h
  | other f => exact h
  | findComponents f auto => exact loop_cur (fun _ _ _ => varFn_cur trivial) _ _ h
  | inputNames => exact drop_sat (names_cur _ _ _ h) fun _ _ h => h
  | outputNames =>
    exact drop_sat (P := fun s' _ => s'.cur = none) (R.Sat.bind (names_cur _ _ _ h) fun _ _ h => h)
      fun _ _ h => h
  | pointableNames => exact drop_sat (names_cur _ _ _ h) fun _ _ h => h

/-! ### Lists of names -/

/-- The three flags a query sees. -/
def seen (m : Mod σ) (s : S σ) (v : Var) : Bool × Bool × Bool :=
  if v = .SelectedOutputHeadings ∧ m.nsel s.st = 0 then
    ((s.va v).set, (s.va v).get, (s.va v).ptr)
  else v.flags

theorem setup_flags (m : Mod σ) (v : Var) (s : S σ) (h : Inv m s) :
    (((setup m v s).va v).set, ((setup m v s).va v).get, ((setup m v s).va v).ptr) =
      seen m s v := by
  have hinit := (h v).info
  unfold setup
  split
  · next hi =>
    have := (hinit hi.1).2
    unfold seen
    split
    · rfl
    · exact this
  · cases v <;> simp [seen, Variant.basic, Var.flags]
    split
    · rw [if_neg (by omega)]; simp [Var.flags]
    · rw [if_pos (by omega)]

theorem ensure_flags {m : Mod σ} {u : Prop} {Q : S σ → Prop} {v : Var} {s : S σ} (h : Inv m s)
    (hm : Lawful m) :
    (ensure m v s).Sat u (fun s' _ =>
      ((s'.va v).set, (s'.va v).get, (s'.va v).ptr) = seen m s v ∧ s'.st = s.st ∧
      ∀ w, w ≠ v → s'.va w = s.va w) Q := by
  unfold ensure
  split
  · next hi =>
    refine ⟨?_, rfl, fun _ _ => rfl⟩
    have := ((h v).info hi).2
    unfold seen
    split
    · rfl
    · exact this
  · rw [varFn_plain _ _ _ (by decide)]
    unfold plain plainBody
    rw [if_neg (by rw [allows_info]; decide)]
    obtain ⟨a1, a2, -⟩ := enter_frame v s
    obtain ⟨b1, -, -, -, -, b6⟩ := setup_frame m v (enter v s)
    refine ⟨?_, by show (setup m v (enter v s)).st = _; rw [b1, a1], fun w hw => ?_⟩
    · have := setup_flags m v (enter v s) (enter_post v h).inv
      have e : seen m (enter v s) v = seen m s v := by unfold seen; rw [a1, a2]
      rw [e] at this
      exact this
    · show (setup m v (enter v s)).va w = _
      rw [b6 w hw, a2]

theorem ensure_seen {m : Mod σ} {v : Var} {s s' : S σ}
    (h : ((s'.va v).set, (s'.va v).get, (s'.va v).ptr) = seen m s v) (hst : s'.st = s.st)
    (ho : ∀ w, w ≠ v → s'.va w = s.va w) (w : Var) : seen m s' w = seen m s w := by
  by_cases hw : w = v
  · subst hw
    unfold seen at h ⊢
    rw [hst]
    split
    · next hc => rw [h, if_pos hc]
    · rfl
  · unfold seen; rw [hst, ho w hw]

/-- The loops over the names. -/
theorem names_eq {m : Mod σ} {u : Prop} {Q : S σ → Prop} (hm : Lawful m)
    (p : Bool × Bool × Bool → Bool) : ∀ (vs : List Var) (l : List (List Char)) (s : S σ), Inv m s →
      (namesLoop m (fun a => p (a.set, a.get, a.ptr)) vs l s).Sat u (fun s' r =>
        r = l ++ (vs.filter (fun v => p (seen m s v))).map (fun v => v.name.toList) ∧
        (∀ w, seen m s' w = seen m s w) ∧ Inv m s' ∧ s'.auto = s.auto) Q
  | [], l, s, h => ⟨by simp, fun _ => rfl, h, rfl⟩
  | v :: vs, l, s, h => by
    rw [namesLoop]
    refine R.Sat.bind (((ensure_sat (u := u) (Q := Q) h hm).and
      (ensure_flags (u := u) (Q := Q) h hm)).mono And.left (fun _ _ h => h) (fun _ h => h.1))
      fun s1 _ ⟨⟨h1, _, h2⟩, f1, f2, f3⟩ => ?_
    have hs := ensure_seen f1 f2 f3
    refine (names_eq hm p vs _ s1 h1.inv).mono id (fun s2 r ⟨g1, g2, g3, g4⟩ => ?_) fun _ h => h
    refine ⟨?_, fun w => by rw [g2, hs], g3, g4.trans h2⟩
    rw [g1, f1]
    simp only [hs]
    by_cases hp : p (seen m s v) = true
    · simp [hp]
    · simp [hp]

theorem count_eq {m : Mod σ} {u : Prop} {Q : S σ → Prop} (hm : Lawful m)
    (p : Bool × Bool × Bool → Bool) : ∀ (vs : List Var) (n : Nat) (s : S σ), Inv m s →
      (countLoop m (fun a => p (a.set, a.get, a.ptr)) vs n s).Sat u (fun s' r =>
        r = n + (vs.filter (fun v => p (seen m s v))).length ∧
        (∀ w, seen m s' w = seen m s w) ∧ Inv m s' ∧ s'.auto = s.auto) Q
  | [], l, s, h => ⟨by simp, fun _ => rfl, h, rfl⟩
  | v :: vs, l, s, h => by
    rw [countLoop]
    refine R.Sat.bind (((ensure_sat (u := u) (Q := Q) h hm).and
      (ensure_flags (u := u) (Q := Q) h hm)).mono And.left (fun _ _ h => h) (fun _ h => h.1))
      fun s1 _ ⟨⟨h1, _, h2⟩, f1, f2, f3⟩ => ?_
    have hs := ensure_seen f1 f2 f3
    refine (count_eq hm p vs _ s1 h1.inv).mono id (fun s2 r ⟨g1, g2, g3, g4⟩ => ?_) fun _ h => h
    refine ⟨?_, fun w => by rw [g2, hs], g3, g4.trans h2⟩
    rw [g1, f1]
    simp only [hs]
    by_cases hp : p (seen m s v) = true
    · simp [hp]; omega
    · simp [hp]

end Verif.BMI
