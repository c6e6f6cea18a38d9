import Verif.BMI.Props

/-!
# The clock, raw transfers, safety, and pointers after direct setters
-/

namespace Verif.BMI

variable {σ : Type}

/-! ### Time (C41) -/

/-- The module's part of a call leaves the two times alone (runs, other calls, `FindComponents`), or
stores its argument (the module's own setters for them). -/
def Op.Punctual (m : Mod σ) : Op σ → Prop
  | .update run => ∀ st w, m.num (run.f st) w = m.num st w
  | .updateUntil run _ => ∀ st w, m.num (run.f st) w = m.num st w
  | .rmSet v f => if v.scalar = true then ∃ x, ∀ st, f st = m.setNum st v x
      else ∀ st w, m.num (f st) w = m.num st w
  | .other f => ∀ st w, m.num (f st) w = m.num st w
  | .findComponents f _ => ∀ st w, m.num (f st) w = m.num st w
  | _ => True

/-- How a call is meant to move the clock. -/
def Tick (m : Mod σ) (op : Op σ) (c c' : Clock) : Prop :=
  match op with
  | .update run => c' = if run.threw = true then c else ⟨c.t + c.dt, c.dt⟩
  | .updateUntil run t =>
    c' = if t < c.t then c else if run.threw = true then ⟨c.t, t - c.t⟩ else ⟨t, t - c.t⟩
  | .setNum v x => c' = if v = .Time then ⟨x, c.dt⟩ else ⟨c.t, x⟩
  | .setRaw v x => if v.scalar = true then
      c' = c ∨ ∃ y l, x = .vec (y :: l) ∧ c' = if v = .Time then ⟨y, c.dt⟩ else ⟨c.t, y⟩
    else c' = c
  | .rmSet v f => if v.scalar = true then
      ∀ x, (∀ st, f st = m.setNum st v x) → c' = if v = .Time then ⟨x, c.dt⟩ else ⟨c.t, x⟩
    else c' = c
  | _ => c' = c

theorem clock_of_st {m : Mod σ} {s s' : S σ} (h : s'.st = s.st) : clock m s' = clock m s := by
  unfold clock; rw [h]

theorem clock_num {m : Mod σ} (ht : Timed m) {s s' : S σ} {v : Var} {x : ℚ} (hv : v.scalar = true)
    (h : s'.st = m.setNum s.st v x) :
    clock m s' = if v = .Time then ⟨x, (clock m s).dt⟩ else ⟨(clock m s).t, x⟩ := by
  unfold clock
  rw [h]
  cases v <;> simp [Var.scalar] at hv
  · rw [ht.same _ _ _ rfl, ht.else' _ _ _ _ (by decide)]; simp
  · rw [ht.same _ _ _ rfl, ht.else' _ _ _ _ (by decide)]; simp

theorem clock_quiet {m : Mod σ} (ht : Timed m) {s s' : S σ} {v : Var} {e : Ex}
    (hv : v.scalar = false) (h : s'.st = stored m v e s.st) : clock m s' = clock m s := by
  unfold clock
  rw [h]
  unfold stored
  split
  · simp only [ht.int]
  · simp only [ht.on]
  · simp only [ht.str]
  · rfl
  · rw [if_neg (by rw [hv]; decide)]; simp only [ht.vec]

/-- C41: every call in every history moves the clock as it is meant to: `Update` by one time step
(to what `GetEndTime` gave), `UpdateUntil(t)` to exactly `t` unless `t` is in the past, the setters
of the two times to their argument, and no other call at all. -/
theorem clock_ticks {m : Mod σ} (hm : Lawful m) (ht : Timed m) {s s' : S σ} (hr : Reach m s)
    (op : Op σ) (hk : op.Mild m) (hg : op.NoGrowth m s) (hty : op.Typed) (hp : op.Punctual m)
    (hl : Leads m s op s') : Tick m op (clock m s) (clock m s') := by
  have h := inv_of_reach hm hr
  have use : ∀ {P : S σ → Prop}, (exec m op s).Sat True (fun s' _ => P s') (fun s' => P s') → P s' := by
    intro P hs
    rcases hl with e | e <;> rw [e] at hs <;> exact hs
  have st : ∀ {P : S σ → Prop}, (exec m op s).Sat True (fun s' _ => P s') (fun s' => P s') →
      (P s' → s'.st = s.st) → clock m s' = clock m s := fun hs hh => clock_of_st (hh (use hs))
  have gets : ∀ {α : Type} (v : Var) (f : Ex → α),
      R.Sat True (fun s' _ => s'.st = s.st) (fun s' => s'.st = s.st)
        ((ensure m v s).bind fun s _ => (varFn m .getVar v s).bind fun s _ => R.ok s (f s.ex)).drop :=
    fun v f => R.Sat.mono (drop_sat (P' := fun s' _ => s'.st = s.st) (getEx_sat h hm f)
      fun _ _ h => h.1.st) id (fun _ _ h => h) fun _ h => h.1.st
  have sets : ∀ (v : Var) (f : Ex → Ex),
      R.Sat True (fun s' _ => ∃ e, s'.st = stored m v (f e) s.st ∧ v.flags.1 = true)
        (fun s' => s'.st = s.st ∧ v.flags.1 = false)
        ((ensure m v s).bind fun s _ => varFn m .setVar v { s with ex := f s.ex }) :=
    fun v f => (setEx_sat h hm f (.inl trivial) (.inl trivial)).mono id
      (fun _ _ h => h.1.elim fun e h' => ⟨e, h'.st, h.2⟩) (fun _ h => ⟨h.1.st, h.2⟩)
  have quiet : ∀ (v : Var) (f : Ex → Ex), v.scalar = false →
      R.Sat True (fun s' _ => clock m s' = clock m s) (fun s' => clock m s' = clock m s)
        ((ensure m v s).bind fun s _ => varFn m .setVar v { s with ex := f s.ex }) :=
    fun v f hv => (sets v f).mono id (fun _ _ ⟨e, h, _⟩ => clock_quiet ht hv h)
      (fun _ h => clock_of_st h.1)
  cases op with
  | getRaw v =>
    exact st (P := fun s' => s'.st = s.st) (R.Sat.mono (drop_sat (P' := fun s' _ => s'.st = s.st)
      (getRaw_sat h hm (.inl trivial)) fun _ _ h => h.1.st) id (fun _ _ h => h) fun _ h => h.st) id
  | getVec v => exact st (gets v (·.data)) id
  | getNum v => exact st (gets v (·.dvar)) id
  | getInt v => exact st (gets v (·.ivar)) id
  | getBool v => exact st (gets v (·.bvar)) id
  | getStr v => exact st (gets v (·.str)) id
  | getStrs v => exact st (gets v (·.strs)) id
  | getPtr v =>
    exact st (P := fun s' => s'.st = s.st) (R.Sat.mono (drop_sat (P' := fun s' _ => s'.st = s.st)
      (getPtr_sat h hm) fun _ _ h => h.1.st) id (fun _ _ h => h) fun _ h => h.1.st) id
  | setRaw v x =>
    have hs := setRaw_sat (u := True) (v := v) (x := x) h hm (.inl trivial) (.inl trivial)
    show if v.scalar = true then _ else _
    by_cases hv : v.scalar = true
    · rw [if_pos hv]
      rcases hl with e | e
      · rw [show exec m (.setRaw v x) s = setValueRaw m v x s from rfl] at e
        rw [e] at hs
        obtain ⟨⟨ex, h1, h2⟩, -⟩ := hs
        have hc : v.ctype = .double := by cases v <;> simp [Var.scalar] at hv <;> rfl
        unfold Carries at h2
        simp only [hc, hv, if_true] at h2
        obtain ⟨l, rfl, hl⟩ := h2
        cases l with
        | nil => cases hl
        | cons y l =>
          simp only [List.head?_cons, Option.some.injEq] at hl
          subst hl
          refine .inr ⟨ex.dvar, l, rfl, clock_num ht hv ?_⟩
          rw [h1.st]; simp only [stored, hc, hv, if_true]
      · rw [show exec m (.setRaw v x) s = setValueRaw m v x s from rfl] at e
        rw [e] at hs
        exact .inl (clock_of_st hs.st)
    · rw [if_neg hv]
      exact use (P := fun s' => clock m s' = clock m s) (hs.mono id
        (fun _ _ ⟨⟨e, h1, _⟩, _⟩ => clock_quiet ht (by simpa using hv) h1.st)
        (fun _ h => clock_of_st h.st))
  | setVec v l =>
    have hv : v.scalar = false := by
      simp only [Op.Typed] at hty
      cases v <;> simp [Var.isVec, Var.ctype, Var.scalar] at hty ⊢
    refine use (P := fun s' => clock m s' = clock m s)
      ((setVec_sat (u := True) h hm (.inl trivial)).mono id
        (fun _ _ hh => ?_) (fun _ h => clock_of_st h.1.st))
    rcases hh with ⟨⟨e, h1⟩, -⟩ | ⟨h1, -⟩
    · exact clock_quiet ht hv h1.st
    · exact clock_of_st h1.st
  | setNum v x =>
    simp only [Op.Typed] at hty
    refine use (P := fun s' => clock m s' = if v = .Time then ⟨x, (clock m s).dt⟩ else ⟨(clock m s).t, x⟩)
      ((sets v fun e => { e with dvar := x }).mono id (fun _ _ ⟨e, h, _⟩ => clock_num ht hty ?_) ?_)
    · rw [h]; cases v <;> simp [Var.scalar] at hty <;> rfl
    · rintro _ ⟨-, hf⟩
      cases v <;> simp [Var.scalar] at hty <;> simp [Var.flags] at hf
  | setInt v i =>
    simp only [Op.Typed] at hty
    exact use (P := fun s' => clock m s' = clock m s) (quiet v (fun e => { e with ivar := i })
      (by cases v <;> simp [Var.ctype] at hty <;> rfl))
  | setBool v b =>
    simp only [Op.Typed] at hty
    exact use (P := fun s' => clock m s' = clock m s)
      (quiet v (fun e => { e with bvar := b, ctype := some .bool })
      (by cases v <;> simp [Var.ctype] at hty <;> rfl))
  | setStr v x =>
    simp only [Op.Typed] at hty
    exact use (P := fun s' => clock m s' = clock m s) (quiet v (fun e => { e with str := x })
      (by cases v <;> simp [Var.ctype] at hty <;> rfl))
  | update run =>
    have hs := update_sat (u := True) hm h run hk
    simp only [Op.Punctual] at hp
    show clock m s' = _
    rcases hl with e | e <;> rw [show exec m (.update run) s = update m run s from rfl] at e <;>
      rw [e] at hs
    · rw [hs.2.1, if_neg (by decide)]
      unfold clock
      rw [hs.1.st, ht.same _ _ _ rfl, ht.else' _ _ _ _ (by decide)]
      simp only [hp]
    · rw [hs.2, if_pos rfl, hs.1]
      unfold clock
      simp only [hp]
  | updateUntil run t =>
    have hs := updateUntil_sat (u := True) hm h run t hk
    simp only [Op.Punctual] at hp
    show clock m s' = _
    rcases hl with e | e <;>
      rw [show exec m (.updateUntil run t) s = updateUntil m run t s from rfl] at e <;> rw [e] at hs
    · rcases hs with ⟨h1, h2, h3, -⟩ | ⟨h1, h2⟩
      · rw [if_neg (by unfold clock; exact not_lt.2 h1), h3, if_neg (by decide)]
        unfold clock
        rw [h2.st, ht.same _ _ _ rfl, ht.else' _ _ _ _ (by decide), hp, ht.same _ _ _ rfl]
      · rw [if_pos (by unfold clock; exact h1), h2]
    · obtain ⟨h1, h2, h3⟩ := hs
      rw [if_neg (by unfold clock; exact not_lt.2 h1), h3, if_pos rfl]
      unfold clock
      rw [h2.st, hp, hp, ht.same _ _ _ rfl, ht.else' _ _ _ _ (by decide)]
  | rmSet v f =>
    simp only [Op.Punctual] at hp
    have hs : (exec m (.rmSet v f) s).Sat True (fun s' _ => s'.st = f s.st)
        (fun s' => s'.st = f s.st) :=
      (rmSet_sat (u := True) h hm (hk _) (.inl trivial) (fun s' => s'.st = f s.st)).mono id
        (fun _ _ h => h.st) (fun _ h => h)
    have hst := use hs
    show if v.scalar = true then _ else _
    by_cases hv : v.scalar = true
    · rw [if_pos hv]
      intro x hx
      exact clock_num ht hv (by rw [hst, hx])
    · rw [if_neg hv] at hp ⊢
      unfold clock
      rw [hst]; simp only [hp]
  | other f =>
    simp only [Op.Punctual] at hp
    rcases hl with e | e
    · simp only [exec, R.ok.injEq, and_true] at e
      show clock m s' = _
      rw [← e]; unfold clock; simp only [hp]
    · simp [exec] at e
  | findComponents f auto =>
    simp only [Op.Punctual] at hp
    have hst := use (P := fun s' => s'.st = f s.st)
      ((findComponents_sat (u := True) (Q := fun s' => s'.st = f s.st) hm h f auto hg).mono id
        (fun _ _ h => h.2.1) fun _ h => h)
    show clock m s' = _
    unfold clock
    rw [hst]; simp only [hp]
  | inputNames =>
    exact st (P := fun s' => s'.st = s.st) (R.Sat.mono (drop_sat (P' := fun s' _ => s'.st = s.st)
      (names_sat (Q := fun s' => s'.st = s.st) hm _ _ _ _ h) fun _ _ h => h.1.st) id
      (fun _ _ h => h) fun _ h => h) id
  | outputNames =>
    refine st (P := fun s' => s'.st = s.st) (R.Sat.mono (drop_sat (P' := fun s' _ => s'.st = s.st)
      (R.Sat.bind (names_sat (Q := fun s' => s'.st = s.st) hm _ _ _ _ h) fun s' a h' => ?_)
      fun _ _ h => h) id (fun _ _ h => h) fun _ h => h) id
    exact h'.1.st
  | pointableNames =>
    exact st (P := fun s' => s'.st = s.st) (R.Sat.mono (drop_sat (P' := fun s' _ => s'.st = s.st)
      (names_sat (Q := fun s' => s'.st = s.st) hm _ _ _ _ h) fun _ _ h => h.1.st) id
      (fun _ _ h => h) fun _ h => h) id

/-- A call that does not set a time. -/
def Op.Timeless : Op σ → Prop
  | .setNum _ _ => False
  | .setRaw v _ => v.scalar = false
  | .rmSet v _ => v.scalar = false
  | _ => True

/-- Calls after `s`, none of which sets a time. -/
inductive Onward (m : Mod σ) : S σ → S σ → Prop
  | refl (s : S σ) : Onward m s s
  | step {s s1 s2 : S σ} (op : Op σ) : Onward m s s1 → op.Mild m → op.NoGrowth m s1 → op.Typed →
      op.Punctual m → op.Timeless → Leads m s1 op s2 → Onward m s s2

theorem Onward.reach {m : Mod σ} {s s' : S σ} (h : Reach m s) (hl : Onward m s s') :
    Reach m s' := by
  induction hl with
  | refl => exact h
  | step op _ hk hg _ _ _ hs ih => exact .step op ih hk hg hs

theorem Tick.onward {m : Mod σ} {op : Op σ} {c c' : Clock} (h : Tick m op c c')
    (ht : op.Timeless) (hd : 0 ≤ c.dt) : c.t ≤ c'.t ∧ 0 ≤ c'.dt := by
  have same : c' = c → c.t ≤ c'.t ∧ 0 ≤ c'.dt := by rintro rfl; exact ⟨le_refl _, hd⟩
  cases op with
  | update run =>
    simp only [Tick] at h
    split at h
    · exact same h
    · subst h; exact ⟨by show c.t ≤ c.t + c.dt; linarith, hd⟩
  | updateUntil run t =>
    simp only [Tick] at h
    split at h
    · exact same h
    · next hlt =>
      have hlt := not_lt.1 hlt
      split at h <;> subst h
      · exact ⟨le_refl _, by show 0 ≤ t - c.t; linarith⟩
      · exact ⟨hlt, by show 0 ≤ t - c.t; linarith⟩
  | setNum v x => exact ht.elim
  | setRaw v x =>
    simp only [Tick] at h
    simp only [Op.Timeless] at ht
    rw [if_neg (by rw [ht]; decide)] at h
    exact same h
  | rmSet v f =>
    simp only [Tick] at h
    simp only [Op.Timeless] at ht
    rw [if_neg (by rw [ht]; decide)] at h
    exact same h
  | _ => exact same h

/-- C41: starting with a time step that is not negative, and without setting a time, no sequence of
calls moves the time backwards (`UpdateUntil` with a time in the past included). -/
theorem time_never_goes_back {m : Mod σ} (hm : Lawful m) (ht : Timed m) {s s' : S σ}
    (hr : Reach m s) (hd : 0 ≤ m.num s.st .TimeStep) (hl : Onward m s s') :
    m.num s.st .Time ≤ m.num s'.st .Time ∧ 0 ≤ m.num s'.st .TimeStep := by
  induction hl with
  | refl => exact ⟨le_refl _, hd⟩
  | step op ho hk hg hty hp hti hs ih =>
    have := (clock_ticks hm ht (ho.reach hr) op hk hg hty hp hs).onward hti ih.2
    exact ⟨ih.1.trans this.1, this.2⟩

/-- C41: an `Update` that returns ends where `GetEndTime` said, and leaves `GetEndTime` one step
ahead. -/
theorem update_ends_at_end_time {m : Mod σ} (hm : Lawful m) (ht : Timed m) {s s' : S σ}
    (hr : Reach m s) (run : Run σ) (hk : ∀ st, Keeps m st (run.f st))
    (hp : ∀ st w, m.num (run.f st) w = m.num st w) (h : update m run s = .ok s' ()) :
    m.num s'.st .Time = getEndTime m s ∧
      getEndTime m s' = m.num s'.st .Time + m.num s.st .TimeStep := by
  have hs := update_sat (u := True) hm (inv_of_reach hm hr) run hk
  have := clock_ticks hm ht hr (.update run) hk trivial trivial hp (.inl h)
  rw [h] at hs
  simp only [Tick, hs.2.1] at this
  have h1 := congrArg Clock.t this
  have h2 := congrArg Clock.dt this
  simp only [clock] at h1 h2
  exact ⟨h1, by unfold getEndTime; rw [h2]; rfl⟩

/-- C41: `UpdateUntil(t)` ends at exactly `t` when `t` is not in the past, and changes nothing
otherwise. -/
theorem until_ends_exactly {m : Mod σ} (hm : Lawful m) (ht : Timed m) {s : S σ}
    (hr : Reach m s) (run : Run σ) (hk : ∀ st, Keeps m st (run.f st)) (hn : run.threw = false)
    (t : ℚ) :
    (m.num s.st .Time ≤ t → ∃ s', updateUntil m run t s = .ok s' () ∧ m.num s'.st .Time = t) ∧
    (t < m.num s.st .Time → updateUntil m run t s = .ok s ()) := by
  obtain ⟨s', a, e, hh⟩ := sat_ok (updateUntil_sat (u := False) hm (inv_of_reach hm hr) run t hk)
    (fun s hs => by rw [hn] at hs; simp at hs)
  constructor
  · intro hle
    rcases hh with ⟨-, h2, -⟩ | ⟨hlt, -⟩
    · exact ⟨s', e, by rw [h2.st, ht.same _ _ _ rfl]⟩
    · exact absurd hle (not_le.2 hlt)
  · intro hlt
    rcases hh with ⟨hle, -⟩ | ⟨-, h2⟩
    · exact absurd hle (not_le.2 hlt)
    · rw [e, h2]

/-! ### Transfers through `void*` (C42) -/

theorem varFn_ex {m : Mod σ} {t : Task} {v : Var} {s s' : S σ} (h : varFn m t v s = .ok s' ()) :
    s'.ex.dim = (s'.va v).dim ∧ s'.ex.ctype = (s'.va v).ctype ∧ s'.ex.nbytes = (s'.va v).nbytes ∧
      s'.ex.itemsize = (s'.va v).itemsize := by
  have fin : ∀ r : R σ Unit, (r.bind fun s _ => R.ok (finish v s) ()) = .ok s' () →
      s'.ex.dim = (s'.va v).dim ∧ s'.ex.ctype = (s'.va v).ctype ∧
        s'.ex.nbytes = (s'.va v).nbytes ∧ s'.ex.itemsize = (s'.va v).itemsize := by
    intro r hr
    cases r with
    | ok s1 a =>
      simp only [R.bind_ok, R.ok.injEq, and_true] at hr
      rw [← hr]; exact ⟨rfl, rfl, rfl, rfl⟩
    | threw s1 => cases hr
    | ub => cases hr
  unfold varFn plain at h
  split at h
  · exact fin _ h
  · exact fin _ h

theorem grid_stays {v : Var} (h : v.grid = true) : v.stays = true := by
  cases v <;> simp [Var.grid, Var.isVec, Var.ctype, Var.scalar] at h <;> rfl

/-- C42 (as far as it holds): `GetValue(name, void*)` of a grid variable with more than one value
copies the module's values. -/
theorem raw_read_partial {m : Mod σ} (hm : Lawful m) {s : S σ} (hr : Reach m s) {v : Var}
    (hv : v.flags.2.1 = true) (hg : v.grid = true) (hn : 1 < m.size s.st v) :
    ∃ s', getValueRaw m v s = .ok s' (.vec (m.vec s.st v)) := by
  have h := inv_of_reach hm hr
  have hg' : v.isVec = true ∧ v ≠ .SelectedOutput := by simpa [Var.grid] using hg
  have hc : v.ctype = .double ∧ v.scalar = false := by
    cases v <;> simp [Var.isVec, Var.ctype, Var.scalar] at hg' ⊢
  obtain ⟨s', e, hval⟩ := get_value h hm hv
  have hs := get_sat (u := False) (v := v) h hm
  rw [e] at hs
  obtain ⟨s1, a, e1, h1, hi, -⟩ := (ensure_sat (u := False) (v := v) (Q := fun _ => False) h hm).get
  rw [e1, R.bind_ok] at e
  have hp := plain_sat (u := False) (t := .getVar) (v := v) h1.inv hm (.inr (.inl rfl))
    (by intro e; cases e)
  rw [varFn_plain _ _ _ (by decide)] at e
  rw [e] at hp
  rw [← varFn_plain m v s1 (t := .getVar) (by decide)] at e
  have hi' : (s'.va v).init = true := hp.1.mono _ (hi (grid_stays hg))
  have sh := (hs.1.inv v).shape hg'.1 hg'.2 hi'
  have hx := varFn_ex e
  have hty := ((hs.1.inv v).info hi').1
  have hval' : s'.ex.data = m.vec s.st v := by
    simpa [readEx, current, hc.1, hc.2] using hval
  have hd : s'.ex.dim = m.size s.st v := by rw [hx.1, sh.2.1, hs.1.st]
  have hct : s'.ex.ctype = some .double := by rw [hx.2.1, hty, hc.1]
  have hlen := hm.len s.st v hg'.1
  refine ⟨s', ?_⟩
  unfold getValueRaw
  rw [e1, R.bind_ok, e, R.bind_ok, hct]
  have hco : copyOut s'.ex s'.ex.itemsize = some (some (.vec (m.vec s.st v))) := by
    unfold copyOut
    rw [hct]
    dsimp only
    rw [if_neg (by omega), if_pos (by omega), if_pos (by rw [hval', hd, hlen]), hval', hd, ← hlen,
      List.take_length]
  dsimp only
  rw [hco]

/-- C42 (as far as it holds): `SetValue(name, void*)` with a grid variable of more than one value
passes the module's setter the values at the address, and with a time the value there. -/
theorem raw_write_partial {m : Mod σ} (hm : Lawful m) {s : S σ} (hr : Reach m s) (hb : Ready s)
    {v : Var} (hv : v.flags.1 = true) :
    (∀ l, v.grid = true → 1 < m.size s.st v → m.size s.st v ≤ l.length →
      ∃ s', setValueRaw m v (.vec l) s = .ok s' () ∧
        s'.st = m.setVec s.st v (l.take (m.size s.st v))) ∧
    (∀ x l, v.scalar = true → ∃ s', setValueRaw m v (.vec (x :: l)) s = .ok s' () ∧
      s'.st = m.setNum s.st v x) ∧
    (∀ i, v.ctype = .int → ∃ s', setValueRaw m v (.int i) s = .ok s' () ∧
      s'.st = m.setInt s.st v i) ∧
    (∀ b, v.ctype = .bool → ∃ s', setValueRaw m v (.bool b) s = .ok s' () ∧
      s'.st = m.setOn s.st b) := by
  have h := inv_of_reach hm hr
  obtain ⟨s1, a, e1, h1, hi, -⟩ := (ensure_sat (u := False) (v := v) (Q := fun _ => False) h hm).get
  have main : ∀ (x : Value) (e' : Ex), copyIn (s1.va v) s1.ex x = some (some e') →
      (v.grid = true → e'.data.length ≤ m.size s.st v) →
      ∃ s', setValueRaw m v x s = .ok s' () ∧ s'.st = stored m v e' s.st := by
    intro x e' hx hl
    have hi2 : Inv m { s1 with ex := e' } := h1.inv.congr rfl rfl rfl rfl
    have hp : Post m s.st s { s1 with ex := e' } := ⟨hi2, h1.st, h1.mono, h1.keep⟩
    obtain ⟨s2, _, e2, h2, -⟩ := sat_ok (varFn_set_sat (u := False) (v := v) hi2 hm hi
      (.inr (hp.ready hb)) (.inr fun hg => by
        show e'.data.length ≤ m.size s1.st v
        rw [h1.st]; exact hl hg)) (fun s hs => by rw [hv] at hs; simp at hs)
    refine ⟨s2, ?_, by rw [h2.st, h1.st]⟩
    unfold setValueRaw
    rw [e1, R.bind_ok, hx]
    exact e2
  have htyp : v.stays = true → (s1.va v).ctype = some v.ctype := fun hst =>
    ((h1.inv v).info (hi hst)).1
  have hone : v.stays = true → (v.ctype = .int ∨ v.ctype = .bool ∨ v.scalar = true) →
      (s1.va v).itemsize ≠ 0 ∧ (s1.va v).nbytes / (s1.va v).itemsize = 1 := by
    intro hst hk
    obtain ⟨-, h2, h3⟩ := (h1.inv v).one hk (hi hst)
    exact ⟨h2, by rw [h3]; exact Nat.div_self (by omega)⟩
  refine ⟨fun l hg hn hl => ?_, fun x l hsc => ?_, fun i hc => ?_, fun b hc => ?_⟩
  · have hg' : v.isVec = true ∧ v ≠ .SelectedOutput := by simpa [Var.grid] using hg
    have hc : v.ctype = .double ∧ v.scalar = false := by
      cases v <;> simp [Var.isVec, Var.ctype, Var.scalar] at hg' ⊢
    have sh := (h1.inv v).shape hg'.1 hg'.2 (hi (grid_stays hg))
    have hd : (s1.va v).nbytes / (s1.va v).itemsize = m.size s.st v := by
      rw [sh.2.2.1, sh.2.2.2, h1.st]; omega
    obtain ⟨s', e, hs⟩ := main (.vec l) { s1.ex with data := l.take (m.size s.st v) } (by
      unfold copyIn
      rw [if_neg (by rw [sh.2.2.1]; decide), htyp (grid_stays hg), hc.1]
      simp only [hd]
      rw [if_neg (by omega), if_pos hn, if_pos hl]) (fun _ => by
        show (l.take _).length ≤ _
        rw [List.length_take]; omega)
    refine ⟨s', e, ?_⟩
    rw [hs]; simp [stored, hc.1, hc.2]
  · have hst : v.stays = true := by cases v <;> simp [Var.scalar] at hsc <;> rfl
    have hc : v.ctype = .double := by cases v <;> simp [Var.scalar] at hsc <;> rfl
    obtain ⟨h2, h3⟩ := hone hst (.inr (.inr hsc))
    obtain ⟨s', e, hs⟩ := main (.vec (x :: l)) { s1.ex with dvar := x } (by
      unfold copyIn
      rw [if_neg h2, htyp hst, hc]
      simp [h3]) (fun hg => by cases v <;> simp [Var.scalar] at hsc <;> cases hg)
    refine ⟨s', e, ?_⟩
    rw [hs]; simp [stored, hc, hsc]
  · have hst : v.stays = true := by
      cases v <;> simp [Var.ctype] at hc <;> simp [Var.flags] at hv <;> rfl
    obtain ⟨h2, h3⟩ := hone hst (.inl hc)
    obtain ⟨s', e, hs⟩ := main (.int i) { s1.ex with ivar := i } (by
      unfold copyIn
      rw [if_neg h2, htyp hst, hc]
      simp [h3]) (fun hg => by cases v <;> simp [Var.ctype] at hc <;> cases hg)
    refine ⟨s', e, ?_⟩
    rw [hs]; simp [stored, hc]
  · have hst : v.stays = true := by
      cases v <;> simp [Var.ctype] at hc <;> rfl
    obtain ⟨h2, h3⟩ := hone hst (.inr (.inl hc))
    obtain ⟨s', e, hs⟩ := main (.bool b) { s1.ex with bvar := b } (by
      unfold copyIn
      rw [if_neg h2, htyp hst, hc]
      simp [h3]) (fun hg => by cases v <;> simp [Var.ctype] at hc <;> cases hg)
    refine ⟨s', e, ?_⟩
    rw [hs]; simp [stored, hc]

/-! ### Memory safety (C87) -/

/-- C87: after `FindComponents`, or after a list of names was asked for, every variable that the
setters write to has its buffer. -/
theorem ready_after {m : Mod σ} (hm : Lawful m) {s s' : S σ} (hr : Reach m s) :
    (∀ f auto, (Op.findComponents f auto).NoGrowth m s →
      ∃ s', findComponents m f auto s = .ok s' () ∧ Ready s') ∧
    (∀ l, getInputVarNames m s = .ok s' l → Ready s') ∧
    (∀ op, op.Mild m → op.NoGrowth m s → Ready s → Leads m s op s' → Ready s') := by
  have h := inv_of_reach hm hr
  refine ⟨fun f auto hg => ?_, fun l hl => ?_, fun op hk hg hb hs => ?_⟩
  · obtain ⟨s', _, e, h1⟩ := (findComponents_sat (u := False) (Q := fun _ => False) hm h f auto hg).get
    exact ⟨s', e, Ready.of_all h1.2.2.1⟩
  · have := names_sat (u := False) (Q := fun _ => False) hm (·.set) Var.all [] s h
    unfold getInputVarNames at hl
    rw [hl] at this
    exact Ready.of_all fun v hv => this.2.1 v (all_mem v) hv
  · have := exec_sat (u := True) hm h op hk hg (.inl trivial) (.inl trivial)
    rcases hs with hs | hs <;> rw [hs] at this <;> exact this.2.1 hb

/-- C87 (as far as it holds): once everything is set up, no call in any order touches memory it
should not (no read or write past the end of a buffer, no division by zero), as long as the types
of the values are those of the variables, buffers passed through `void*` are long enough, the error
string is not read through `void*`, and one-cell grids do not use `void*` setters. -/
theorem calls_are_safe_partial {m : Mod σ} (hm : Lawful m) {s : S σ} (hr : Reach m s)
    (hb : Ready s) (op : Op σ) (hk : op.Mild m) (hg : op.NoGrowth m s) (hs : op.Safe m s) :
    exec m op s ≠ .ub := by
  intro e
  have := exec_sat (u := False) hm (inv_of_reach hm hr) op hk hg (.inr hb) (.inr hs)
  rw [e] at this
  exact this

/-! ### Setters of the module itself (C91) -/

/-- States after calls that all returned. -/
inductive Smooth (m : Mod σ) : S σ → Prop
  | start (st : σ) : Smooth m (start st)
  | step {s s' : S σ} (op : Op σ) : Smooth m s → op.Mild m → op.NoGrowth m s →
      exec m op s = .ok s' () → Smooth m s'

theorem Smooth.reach {m : Mod σ} {s : S σ} (h : Smooth m s) : Reach m s := by
  induction h with
  | start => exact .start _
  | step op _ hk hg hs ih => exact .step op ih hk hg (.inl hs)

theorem Smooth.cur {m : Mod σ} {s : S σ} (h : Smooth m s) : s.cur = none := by
  induction h with
  | start => rfl
  | step op _ hk hg hs ih =>
    have := exec_cur (m := m) op ih
    rw [hs] at this
    exact this

/-- C91 (as far as it holds): as long as every call so far has returned, calling a setter of the
module itself brings up to date what the pointers already given out show: the variable set, and for
porosity, saturation and density also the concentrations and the calculated saturations or
densities (`Var.touches`). -/
theorem direct_setters_show_partial {m : Mod σ} (hm : Lawful m) {s : S σ} (hs : Smooth m s)
    (hb : Ready s) {v a : Var} (ha : v.announces = some a) (f : σ → σ)
    (hk : ∀ st, Keeps m st (f st)) {w : Var} {q : Ptr} (hq : (s.va w).void = some q)
    (hw : w ∈ v.touches) :
    ∃ s', rmSet m v (f s.st) s = .ok s' () ∧ s'.st = f s.st ∧
      deref s' w q = some (current m (f s.st) w) := by
  have h := inv_of_reach hm hs.reach
  have hp : s.pset w = true := ((h w).point q hq).2.1
  have hany : Var.all.any s.pset = true := List.any_eq_true.2 ⟨w, all_mem w, hp⟩
  have h1 : Inv m { s with st := f s.st } := h.keep (hk _)
  have e : rmSet m v (f s.st) s = plain m .rmUpdate a { s with st := f s.st } := by
    unfold rmSet
    rw [ha]
    unfold notify
    dsimp only
    rw [if_neg (by rw [hany]; decide), if_neg (by rw [hs.cur]; simp)]
  have hsat := (rmSet_sat (u := False) (v := v) (st := f s.st) h hm (hk _) (.inr (.inr hb))
    (fun _ => False)).get
  obtain ⟨s', x, e', h2⟩ := hsat
  have hc := plain_cur (u := False) (Q := fun _ => False) (v := v) (a := a)
    (s := { s with st := f s.st }) h1 hm hb ha
  rw [← e, e'] at hc
  refine ⟨s', e', h2.st, ?_⟩
  rw [← h2.st]
  exact deref_cur h2.inv (h2.keep w q hq) (hc w hw)

end Verif.BMI
