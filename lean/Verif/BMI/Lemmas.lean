import Verif.BMI.Spec

/-!
# Lemmas about the BMI layer
-/

namespace Verif.BMI

variable {σ : Type}

/-- `r` ends in a state with `I`; undefined behaviour only if `u`. -/
def R.Sat {α : Type} (u : Prop) (P : S σ → α → Prop) (Q : S σ → Prop) : R σ α → Prop
  | .ok s a => P s a
  | .threw s => Q s
  | .ub => u

theorem R.Sat.bind {α β : Type} {u : Prop} {P : S σ → α → Prop} {Q : S σ → Prop}
    {P' : S σ → β → Prop} {r : R σ α} {f : S σ → α → R σ β}
    (h : r.Sat u P Q) (hf : ∀ s a, P s a → (f s a).Sat u P' Q) : (r.bind f).Sat u P' Q := by
  cases r with
  | ok s a => exact hf s a h
  | threw s => exact h
  | ub => exact h

theorem R.Sat.mono {α : Type} {u u' : Prop} {P P' : S σ → α → Prop} {Q Q' : S σ → Prop} {r : R σ α}
    (h : r.Sat u P Q) (hu : u → u') (hP : ∀ s a, P s a → P' s a) (hQ : ∀ s, Q s → Q' s) :
    r.Sat u' P' Q' := by
  cases r with
  | ok s a => exact hP s a h
  | threw s => exact hQ s h
  | ub => exact hu h

/-- Variables that get marked as initialised. -/
def Var.stays : Var → Bool
  | .SelectedOutput | .FilePrefix | .SelectedOutputHeadings | .SelectedOutputRowCount => false
  | _ => true

/-- What holds of a variable between calls. -/
structure VInv (m : Mod σ) (st : σ) (p u : Bool) (v : Var) (a : Variant) : Prop where
  info  : a.init = true → a.ctype = some v.ctype ∧ (a.set, a.get, a.ptr) = v.flags
  shape : v.isVec = true → v ≠ .SelectedOutput → a.init = true →
    a.buf.data.length = m.size st v ∧ a.dim = m.size st v ∧ a.itemsize = 8 ∧
      a.nbytes = 8 * m.size st v
  one   : v.ctype = .int ∨ v.ctype = .bool ∨ v.scalar = true → a.init = true →
    a.dim = 1 ∧ a.itemsize ≠ 0 ∧ a.nbytes = a.itemsize
  cap   : a.buf.data.length ≤ a.buf.cap
  uses  : u = true → a.init = true ∧ v.flags.2.2 = true ∧ v.updates = true
  point : ∀ q, a.void = some q → a.init = true ∧ p = true ∧ (v.updates = true → u = true) ∧
    v.flags.2.2 = true ∧ q = if v.isVec = true then .vec a.buf.gen else .scalar
  const : v = .ComponentCount ∨ v = .GridCellCount → a.init = true → a.ivar = m.int st v
  gfw   : v = .Gfw → a.init = true → a.buf.data = m.vec st v
  live  : v.stays = false → a.init = false
  typ   : (a.ctype = none ∧ (a.set, a.get, a.ptr) = (false, false, false)) ∨
    (a.ctype = some v.ctype ∧ (a.set, a.get, a.ptr) = v.flags)

/-- What holds between calls. -/
def Inv (m : Mod σ) (s : S σ) : Prop := ∀ v, VInv m s.st (s.pset v) (s.uset v) v (s.va v)

@[simp] theorem upd_same (s : S σ) (v : Var) (f : Variant → Variant) :
    (s.upd v f).va v = f (s.va v) := by simp [S.upd]

theorem upd_other (s : S σ) (v w : Var) (f : Variant → Variant) (h : w ≠ v) :
    (s.upd v f).va w = s.va w := by simp [S.upd, h]

@[simp] theorem upd_st (s : S σ) (v : Var) (f : Variant → Variant) : (s.upd v f).st = s.st := rfl
@[simp] theorem upd_ex (s : S σ) (v : Var) (f : Variant → Variant) : (s.upd v f).ex = s.ex := rfl
@[simp] theorem upd_pset (s : S σ) (v : Var) (f : Variant → Variant) :
    (s.upd v f).pset = s.pset := rfl
@[simp] theorem upd_uset (s : S σ) (v : Var) (f : Variant → Variant) :
    (s.upd v f).uset = s.uset := rfl
@[simp] theorem upd_cur (s : S σ) (v : Var) (f : Variant → Variant) : (s.upd v f).cur = s.cur := rfl
@[simp] theorem upd_auto (s : S σ) (v : Var) (f : Variant → Variant) :
    (s.upd v f).auto = s.auto := rfl

theorem Inv.upd {m : Mod σ} {s : S σ} (h : Inv m s) (v : Var) (f : Variant → Variant)
    (hf : VInv m s.st (s.pset v) (s.uset v) v (f (s.va v))) : Inv m (s.upd v f) := by
  intro w
  by_cases hw : w = v
  · subst hw; simpa using hf
  · rw [upd_other _ _ _ _ hw]; exact h w

/-- `Inv` looks at these parts only. -/
theorem Inv.congr {m : Mod σ} {s s' : S σ} (h : Inv m s) (h1 : s'.st = s.st) (h2 : s'.va = s.va)
    (h3 : s'.pset = s.pset) (h4 : s'.uset = s.uset) : Inv m s' := by
  intro v; rw [h1, h2, h3, h4]; exact h v

theorem resize_length (b : Buf) (n : Nat) : (b.resize n).data.length = n := by
  unfold Buf.resize
  dsimp only
  split <;> simp <;> omega

theorem resize_cap (b : Buf) (n : Nat) : (b.resize n).data.length ≤ (b.resize n).cap := by
  rw [resize_length]
  unfold Buf.resize
  dsimp only
  split <;> simp_all

theorem le_resize_cap (b : Buf) (n : Nat) : n ≤ (b.resize n).cap := by
  have := resize_cap b n
  rwa [resize_length] at this

theorem resize_gen (b : Buf) (n : Nat) (h : n ≤ b.cap) : (b.resize n).gen = b.gen := by
  simp [Buf.resize, h]

theorem assign_data (b : Buf) (l : List ℚ) : (b.assign l).data = l := by
  unfold Buf.assign; split <;> rfl

theorem assign_cap (b : Buf) (l : List ℚ) : (b.assign l).data.length ≤ (b.assign l).cap := by
  unfold Buf.assign; split <;> simp_all

theorem le_assign_cap (b : Buf) (l : List ℚ) : l.length ≤ (b.assign l).cap := by
  have := assign_cap b l
  rwa [assign_data] at this

theorem assign_gen (b : Buf) (l : List ℚ) (h : l.length ≤ b.cap) : (b.assign l).gen = b.gen := by
  simp [Buf.assign, h]

theorem copy_some {b b' : Buf} {l : List ℚ} (h : b.copy l = some b') :
    l.length ≤ b.data.length ∧ b'.gen = b.gen ∧ b'.cap = b.cap ∧
      b'.data.length = b.data.length ∧ b'.data = l ++ b.data.drop l.length := by
  unfold Buf.copy at h
  split at h
  · next hl =>
    simp only [Option.some.injEq] at h
    subst h
    exact ⟨hl, rfl, rfl, by simp; omega, rfl⟩
  · simp at h

theorem copy_exact (b : Buf) (l : List ℚ) (h : l.length = b.data.length) :
    b.copy l = some { b with data := l } := by
  simp [Buf.copy, h]

/-- A fresh set-up of a variable whose pointer, if any, stays valid. -/
theorem setup_fresh (m : Mod σ) (hm : Lawful m) (v : Var) (s : S σ) (st : σ)
    (hi : (s.va v).init = false)
    (hc : (s.va v).buf.data.length ≤ (s.va v).buf.cap)
    (hu : s.uset v = true → v.flags.2.2 = true ∧ v.updates = true)
    (hp : ∀ q, (s.va v).void = some q → s.pset v = true ∧ (v.updates = true → s.uset v = true) ∧
      v.flags.2.2 = true ∧ (q = if v.isVec = true then .vec (s.va v).buf.gen else .scalar) ∧
      (v.isVec = true → m.size s.st v ≤ (s.va v).buf.cap))
    (ht : ((s.va v).ctype = none ∧ ((s.va v).set, (s.va v).get, (s.va v).ptr) = (false, false, false)) ∨
      ((s.va v).ctype = some v.ctype ∧ ((s.va v).set, (s.va v).get, (s.va v).ptr) = v.flags))
    (hst : st = s.st) :
    VInv m st (s.pset v) (s.uset v) v ((setup m v s).va v) := by
  subst hst
  have hlen := hm.len s.st v
  cases v <;>
    simp only [setup, hi, Bool.false_eq_true, false_and, if_false] <;>
    (try split) <;>
    (refine ⟨?_, ?_, ?_, ?_, ?_, ?_, ?_, ?_, ?_, ?_⟩ <;>
      simp [Variant.basic, Var.ctype, Var.flags, Var.isVec, Var.scalar, Var.updates, hi,
        resize_length, le_resize_cap, assign_data, le_assign_cap, Var.stays] at hu hp hlen ht ⊢) <;>
    (try simp_all [Mod.size, resize_gen, assign_gen])

/-- What `setup` leaves alone. -/
theorem setup_frame (m : Mod σ) (v : Var) (s : S σ) :
    (setup m v s).st = s.st ∧ (setup m v s).pset = s.pset ∧ (setup m v s).uset = s.uset ∧
      (setup m v s).cur = s.cur ∧ (setup m v s).auto = s.auto ∧
      ∀ w, w ≠ v → (setup m v s).va w = s.va w := by
  unfold setup
  split
  · exact ⟨rfl, rfl, rfl, rfl, rfl, fun _ _ => rfl⟩
  · cases v <;> dsimp only <;> (try split) <;>
      exact ⟨rfl, rfl, rfl, rfl, rfl, fun w hw => by
        first | rfl | exact upd_other _ _ _ _ hw | (dsimp only; exact upd_other _ _ _ _ hw)⟩

theorem setup_void (m : Mod σ) (v : Var) (s : S σ) :
    ((setup m v s).va v).void = (s.va v).void := by
  unfold setup
  split
  · rfl
  · cases v <;> dsimp only <;> (try split) <;> simp [Variant.basic]

theorem setup_init (m : Mod σ) (v : Var) (s : S σ) (hv : v.stays = true) :
    ((setup m v s).va v).init = true := by
  unfold setup
  split
  · next h => exact h.1
  · cases v <;> simp [Variant.basic, Var.stays] at hv ⊢

theorem setup_mono (m : Mod σ) (v w : Var) (s : S σ) (h : (s.va w).init = true) :
    ((setup m v s).va w).init = true := by
  by_cases hw : w = v
  · subst hw
    unfold setup
    split
    · exact h
    · cases w <;> dsimp only <;> (try split) <;> simp [Variant.basic, h]
  · rw [(setup_frame m v s).2.2.2.2.2 w hw]; exact h

theorem setup_same (m : Mod σ) (v : Var) (s : S σ) (h : (s.va v).init = true)
    (hv : v.stays = true) : setup m v s = s := by
  unfold setup
  rw [if_pos ⟨h, by rintro rfl; simp [Var.stays] at hv⟩]

theorem setup_inv {m : Mod σ} (hm : Lawful m) (v : Var) {s : S σ} (h : Inv m s) :
    Inv m (setup m v s) := by
  obtain ⟨h1, h2, h3, -, -, h6⟩ := setup_frame m v s
  intro w
  rw [h1, h2, h3]
  by_cases hw : w = v
  · subst hw
    cases hi : (s.va w).init with
    | false =>
      refine setup_fresh m hm w s _ hi (h w).cap (fun hu => ((h w).uses hu).2) ?_ (h w).typ rfl
      intro q hq
      have := ((h w).point q hq).1
      rw [hi] at this; cases this
    | true =>
      have hs : w.stays = true := by
        by_contra hc
        have := (h w).live (by simpa using hc)
        rw [hi] at this; cases this
      rw [setup_same m w s hi hs]
      exact h w
  · rw [h6 w hw]; exact h w

/-- A grid variable kept in a buffer of fixed size. -/
def Var.grid (v : Var) : Bool := v.isVec && (v != .SelectedOutput)

/-- What `fetch` does when the buffer has the right size. -/
def fetched (m : Mod σ) (v : Var) (s : S σ) : S σ :=
  if v.grid = true then
    { s.upd v (fun a => { a with buf := { a.buf with data := m.vec s.st v } }) with
      ex := { s.ex with data := m.vec s.st v } }
  else
    match fetch m v s with
    | .ok s' _ => s'
    | _ => s

theorem fetch_grid (m : Mod σ) (v : Var) (s : S σ) (hv : v.grid = true) :
    fetch m v s = copyTo v (m.vec s.st v) { s with ex := { s.ex with data := m.vec s.st v } } := by
  cases v <;> simp [Var.grid, Var.isVec, Var.ctype, Var.scalar] at hv <;> rfl

theorem fetch_ok {m : Mod σ} (hm : Lawful m) {v : Var} {s : S σ} (h : Inv m s)
    (hi : v.stays = true → (s.va v).init = true) : fetch m v s = .ok (fetched m v s) () := by
  by_cases hv : v.grid = true
  · have hv' : v.isVec = true ∧ v ≠ .SelectedOutput := by
      simpa [Var.grid] using hv
    have hs : v.stays = true := by
      cases v <;> simp [Var.isVec, Var.ctype, Var.scalar, Var.stays] at hv' ⊢
    have hl : (m.vec s.st v).length = (s.va v).buf.data.length := by
      rw [hm.len _ _ hv'.1, ((h v).shape hv'.1 hv'.2 (hi hs)).1]
    rw [fetch_grid m v s hv, fetched, if_pos hv, copyTo]
    simp only
    rw [copy_exact _ _ hl]
    rfl
  · rw [fetched, if_neg hv]
    cases v <;> simp [Var.grid, Var.isVec, Var.ctype, Var.scalar] at hv <;> rfl

/-- What `fetched` leaves alone. -/
theorem fetched_frame (m : Mod σ) (v : Var) (s : S σ) :
    (fetched m v s).st = s.st ∧ (fetched m v s).pset = s.pset ∧ (fetched m v s).uset = s.uset ∧
      (fetched m v s).cur = s.cur ∧ (fetched m v s).auto = s.auto ∧
      (∀ w, w ≠ v → (fetched m v s).va w = s.va w) ∧
      ((fetched m v s).va v).init = (s.va v).init ∧ ((fetched m v s).va v).void = (s.va v).void := by
  unfold fetched
  split
  · exact ⟨rfl, rfl, rfl, rfl, rfl, fun w hw => by simp [S.upd, hw], by simp, by simp⟩
  · next hv =>
    cases v <;> simp [Var.grid, Var.isVec, Var.ctype, Var.scalar] at hv <;>
      exact ⟨rfl, rfl, rfl, rfl, rfl, fun w hw => by simp [fetch, S.upd, hw],
        by simp [fetch], by simp [fetch]⟩

theorem fetched_inv {m : Mod σ} (hm : Lawful m) {v : Var} {s : S σ} (h : Inv m s)
    (hi : v.stays = true → (s.va v).init = true) : Inv m (fetched m v s) := by
  obtain ⟨h1, h2, h3, -, -, h6, -, -⟩ := fetched_frame m v s
  intro w
  rw [h1, h2, h3]
  by_cases hw : w = v
  swap
  · rw [h6 w hw]; exact h w
  subst hw
  have hw := h w
  by_cases hv : w.grid = true
  · have hv' : w.isVec = true ∧ w ≠ .SelectedOutput := by simpa [Var.grid] using hv
    have hs : w.stays = true := by
      cases w <;> simp [Var.isVec, Var.ctype, Var.scalar, Var.stays] at hv' ⊢
    have hl : (m.vec s.st w).length = (s.va w).buf.data.length := by
      rw [hm.len _ _ hv'.1, (hw.shape hv'.1 hv'.2 (hi hs)).1]
    have e : (fetched m w s).va w =
        { s.va w with buf := { (s.va w).buf with data := m.vec s.st w } } := by
      rw [fetched, if_pos hv]; simp
    rw [e]
    refine ⟨hw.info, fun a b c => ?_, hw.one, ?_, hw.uses, hw.point, hw.const, fun _ _ => rfl,
      hw.live, hw.typ⟩
    · refine ⟨?_, (hw.shape a b c).2⟩
      show (m.vec s.st w).length = _
      rw [hl]; exact (hw.shape a b c).1
    · show (m.vec s.st w).length ≤ (s.va w).buf.cap
      rw [hl]; exact hw.cap
  · rw [fetched, if_neg hv]
    obtain ⟨i1, i2, i3, i4, i5, i6, i7, i8, i9, i10⟩ := hw
    cases w <;> simp [Var.grid, Var.isVec, Var.ctype, Var.scalar] at hv <;>
      simp only [fetch, upd_same] <;>
      refine ⟨?_, ?_, ?_, ?_, ?_, ?_, ?_, ?_, ?_, ?_⟩ <;>
      (first
        | exact i1 | exact i2 | exact i3 | exact i4 | exact i5 | exact i6 | exact i7 | exact i8
        | exact i9 | exact i10
        | simp_all [Var.isVec, Var.ctype, Var.scalar, Var.stays, Var.flags, assign_cap])

end Verif.BMI
