import Verif.BMI.Lemmas

/-!
# What each call of the BMI layer preserves
-/

namespace Verif.BMI

variable {σ : Type}

/-- A call kept the invariant, left the module in state `st` and forgot no set-up. -/
structure Post (m : Mod σ) (st : σ) (s0 s : S σ) : Prop where
  inv  : Inv m s
  st   : s.st = st
  mono : ∀ w, (s0.va w).init = true → (s.va w).init = true
  keep : ∀ w q, (s0.va w).void = some q → (s.va w).void = some q

theorem Post.trans {m : Mod σ} {st st' : σ} {s0 s1 s2 : S σ} (h : Post m st s0 s1)
    (h' : Post m st' s1 s2) : Post m st' s0 s2 :=
  ⟨h'.inv, h'.st, fun w hw => h'.mono w (h.mono w hw), fun w q hw => h'.keep w q (h.keep w q hw)⟩

theorem Post.cast {m : Mod σ} {st st' : σ} {s0 s : S σ} (h : Post m st s0 s) (e : st = st') :
    Post m st' s0 s := e ▸ h

theorem Post.refl {m : Mod σ} {s : S σ} (h : Inv m s) : Post m s.st s s :=
  ⟨h, rfl, fun _ h => h, fun _ _ h => h⟩

/-- The two variables refreshed on behalf of others are set up. -/
def Ready (s : S σ) : Prop :=
  (s.va .Concentrations).init = true ∧ (s.va .SaturationCalculated).init = true

theorem Post.ready {m : Mod σ} {st : σ} {s0 s : S σ} (h : Post m st s0 s) (hr : Ready s0) :
    Ready s := ⟨h.mono _ hr.1, h.mono _ hr.2⟩

theorem Keeps.refl (m : Mod σ) (st : σ) : Keeps m st st := ⟨rfl, rfl, rfl, rfl⟩

theorem Keeps.size {m : Mod σ} {st st' : σ} (h : Keeps m st st') (v : Var)
    (hv : v ≠ .SelectedOutput) : m.size st' v = m.size st v := by
  cases v <;> simp [Mod.size, h.ncomp] at hv ⊢

theorem VInv.keep {m : Mod σ} {st st' : σ} {p u : Bool} {v : Var} {a : Variant}
    (h : VInv m st p u v a) (hk : Keeps m st st') : VInv m st' p u v a := by
  obtain ⟨i1, i2, i3, i4, i5, i6, i7, i8, i9, i10⟩ := h
  refine ⟨i1, fun h1 h2 h3 => ?_, i3, i4, i5, i6, fun h1 h2 => ?_, fun h1 h2 => ?_, i9, i10⟩
  · rw [hk.size v h2]; exact i2 h1 h2 h3
  · rw [i7 h1 h2]
    rcases h1 with rfl | rfl
    · exact hk.count.symm
    · exact hk.grid.symm
  · subst h1
    rw [i8 rfl h2]; exact hk.gfw.symm

theorem Inv.keep {m : Mod σ} {s : S σ} {st : σ} (h : Inv m s) (hk : Keeps m s.st st) :
    Inv m { s with st := st } := fun v => (h v).keep hk

theorem copyTo_sat {m : Mod σ} {u : Prop} {Q : S σ → Prop} {v : Var} {l : List ℚ} {s : S σ}
    (h : Inv m s) (hg : v = .Gfw → l = m.vec s.st v) (hm : Lawful m)
    (hl : u ∨ l.length ≤ (s.va v).buf.data.length) :
    (copyTo v l s).Sat u (fun s' _ => Post m s.st s s' ∧ s'.ex = s.ex) Q := by
  unfold copyTo
  cases hc : (s.va v).buf.copy l with
  | none =>
    rcases hl with hu | hl
    · exact hu
    · simp [Buf.copy, hl] at hc
  | some b =>
    obtain ⟨h1, h2, h3, h4, h5⟩ := copy_some hc
    refine ⟨⟨h.upd v _ ?_, rfl, fun w hw => ?_, fun w q hw => ?_⟩, rfl⟩
    · obtain ⟨i1, i2, i3, i4, i5, i6, i7, i8, i9, i10⟩ := h v
      refine ⟨i1, fun a b c => ?_, i3, ?_, i5, ?_, i7, ?_, i9, i10⟩
      · have := i2 a b c; simp only; rw [h4]; exact this
      · simp only; rw [h4, h3]; exact i4
      · simp only; rw [h2]; exact i6
      · intro a b
        subst a
        have e := (i2 (by decide) (by decide) b).1
        have e2 := hm.len s.st .Gfw (by decide)
        rw [hg rfl] at h5
        show _ = m.vec s.st .Gfw
        simp only
        rw [h5, List.drop_eq_nil_of_le (by rw [e, e2]), List.append_nil]
    · by_cases hv : w = v
      · subst hv; simpa using hw
      · rw [upd_other _ _ _ _ hv]; exact hw
    · by_cases hv : w = v
      · subst hv; simpa using hw
      · rw [upd_other _ _ _ _ hv]; exact hw

theorem refresh_sat {m : Mod σ} {u : Prop} {Q : S σ → Prop} {v : Var} {s : S σ}
    (h : Inv m s) (hm : Lawful m) (hv : v.grid = true) (hl : u ∨ (s.va v).init = true) :
    (refresh m v s).Sat u (fun s' _ => Post m s.st s s' ∧ s'.ex = s.ex) Q := by
  have hv' : v.isVec = true ∧ v ≠ .SelectedOutput := by simpa [Var.grid] using hv
  refine copyTo_sat h (fun _ => rfl) hm (hl.imp_right fun hi => ?_)
  rw [hm.len _ _ hv'.1, ((h v).shape hv'.1 hv'.2 hi).1]

theorem fetch_sat {m : Mod σ} {u : Prop} {Q : S σ → Prop} {v : Var} {s : S σ}
    (h : Inv m s) (hm : Lawful m) (hi : v.stays = true → (s.va v).init = true) :
    (fetch m v s).Sat u (fun s' _ => Post m s.st s s' ∧ s' = fetched m v s) Q := by
  rw [fetch_ok hm h hi]
  obtain ⟨h1, h2, h3, -, -, h6, h7, h8⟩ := fetched_frame m v s
  refine ⟨⟨fetched_inv hm h hi, h1, fun w hw => ?_, fun w q hw => ?_⟩, rfl⟩
  swap
  · by_cases hv : w = v
    · subst hv; rw [h8]; exact hw
    · rw [h6 w hv]; exact hw
  by_cases hv : w = v
  · subst hv; rw [h7]; exact hw
  · rw [h6 w hv]; exact hw

/-- `fetch` for use in sequences. -/
theorem fetch_sat' {m : Mod σ} {u : Prop} {Q : S σ → Prop} {v : Var} {s : S σ}
    (h : Inv m s) (hm : Lawful m) (hi : v.stays = true → (s.va v).init = true) :
    (fetch m v s).Sat u (fun s' _ => Post m s.st s s') Q :=
  (fetch_sat h hm hi).mono id (fun _ _ h => h.1) (fun _ h => h)

theorem getPtr_flags {v : Var} (h : v.allows .getPtr = true) (hv : v ≠ .Components) :
    v.flags.2.2 = true ∧ v.stays = true := by
  cases v <;> simp [Var.allows, Var.flags, Var.stays] at h hv ⊢

theorem point_inv {m : Mod σ} {v : Var} {s : S σ} (h : Inv m s) (hv : v.flags.2.2 = true)
    (hi : (s.va v).init = true) :
    Inv m { s.upd v (fun a => { a with void := pointerTo v a }) with
        pset := fun w => if w = v then true else s.pset w
        uset := fun w => if w = v then v.updates || s.uset w else s.uset w } := by
  intro w
  by_cases hw : w = v
  · subst hw
    obtain ⟨i1, i2, i3, i4, i5, i6, i7, i8, i9, i10⟩ := h w
    simp only [upd_same, upd_st, if_true]
    refine ⟨i1, i2, i3, i4, fun hu => ⟨hi, hv, ?_⟩, fun q hq => ?_, i7, i8, i9, i10⟩
    · cases hq : w.updates with
      | true => rfl
      | false =>
        rw [hq, Bool.false_or] at hu
        rw [(i5 hu).2.2] at hq; cases hq
    · refine ⟨hi, rfl, fun e => by rw [e, Bool.true_or], hv, ?_⟩
      simp only [pointerTo] at hq
      split at hq
      · split at hq
        · cases hq
        · simp_all
      · simp_all
  · simp only [if_neg hw]
    rw [upd_other _ _ _ _ hw]
    exact h w

/-- The task does not refresh other variables. -/
def alone (t : Task) (v : Var) : Bool :=
  match t, v with
  | .rmUpdate, .SaturationUser | .rmUpdate, .DensityCalculated
  | .rmUpdate, .SaturationCalculated | .rmUpdate, .Porosity => false
  | _, _ => true

theorem plainBody_sat {m : Mod σ} {u : Prop} {t : Task} {v : Var} {s : S σ}
    (h : Inv m s) (hm : Lawful m) (hi : v.stays = true → (s.va v).init = true)
    (hr : u ∨ alone t v = true ∨ Ready s) (hv : t = .getPtr → (s.va v).void = none) :
    (plainBody m t v s).Sat u (fun s' _ => Post m s.st s s') (fun s' => s' = s ∧ v.allows t = false) := by
  unfold plainBody
  split
  · next ha => exact ⟨rfl, ha⟩
  next ha =>
  have ha : v.allows t = true := by simpa using ha
  have hready : alone t v = false → u ∨ Ready s := fun e =>
    hr.imp_right (fun x => x.resolve_left (by rw [e]; decide))
  split
  · exact Post.refl h
  · exact Post.refl h
  · next hne =>
    have hf := getPtr_flags ha (by rintro rfl; exact hne rfl)
    refine R.Sat.bind (fetch_sat' h hm hi) fun s1 _ h1 => ?_
    have i1 := h1.mono v (hi hf.2)
    refine ⟨point_inv h1.inv hf.1 i1, h1.st, fun w hw => ?_, fun w q hw => ?_⟩
    · by_cases e : w = v
      · subst e; simpa using i1
      · simp only [upd_other _ _ _ _ e]; exact h1.mono w hw
    · by_cases e : w = v
      · subst e; rw [hv rfl] at hw; cases hw
      · simp only [upd_other _ _ _ _ e]; exact h1.keep w q hw
  · exact (refresh_sat h hm (by decide) ((hready rfl).imp_right (·.1))).mono id (fun _ _ h => h.1)
      (fun _ h => h)
  · refine R.Sat.bind (refresh_sat h hm (by decide) ((hready rfl).imp_right (·.1)))
      fun s1 _ h1 => ?_
    exact (fetch_sat' h1.1.inv hm (fun e => h1.1.mono _ (hi e))).mono id
      (fun s' _ h' => h1.1.trans (h1.1.st ▸ h')) (fun _ h => h)
  · refine R.Sat.bind (refresh_sat h hm (by decide) ((hready rfl).imp_right (·.1)))
      fun s1 _ h1 => ?_
    exact (fetch_sat' h1.1.inv hm (fun e => h1.1.mono _ (hi e))).mono id
      (fun s' _ h' => h1.1.trans (h1.1.st ▸ h')) (fun _ h => h)
  · refine R.Sat.bind (fetch_sat' h hm hi) fun s1 _ h1 => ?_
    refine R.Sat.bind (refresh_sat h1.inv hm (by decide)
      ((hready rfl).imp_right fun r => (h1.ready r).1)) fun s2 _ h2 => ?_
    have h12 : Post m s.st s s2 := h1.trans (h1.st ▸ h2.1)
    exact (refresh_sat h12.inv hm (by decide)
      ((hready rfl).imp_right fun r => (h12.ready r).2)).mono id
      (fun s' _ h' => h12.trans (h12.st ▸ h'.1)) (fun _ h => h)
  · refine R.Sat.bind (fetch_sat' h hm hi) fun s1 _ h1 => ?_
    refine ⟨fun w => ?_, h1.st, h1.mono, h1.keep⟩
    by_cases e : w = .GridCellCount
    · subst e
      obtain ⟨i1, i2, i3, i4, i5, i6, i7, i8, i9, i10⟩ := h1.inv .GridCellCount
      exact ⟨i1, i2, i3, i4, i5, fun q hq => ⟨(i6 q hq).1, rfl, (i6 q hq).2.2⟩, i7, i8, i9, i10⟩
    · simp only [if_neg e]; exact h1.inv w
  · exact fetch_sat' h hm hi

theorem enter_frame (v : Var) (s : S σ) : (enter v s).st = s.st ∧ (enter v s).va = s.va ∧
    (enter v s).pset = s.pset ∧ (enter v s).uset = s.uset ∧ (enter v s).ex = s.ex ∧
    (enter v s).auto = s.auto := by
  unfold enter; split <;> exact ⟨rfl, rfl, rfl, rfl, rfl, rfl⟩

theorem enter_post {m : Mod σ} (v : Var) {s : S σ} (h : Inv m s) : Post m s.st s (enter v s) := by
  obtain ⟨h1, h2, h3, h4, -⟩ := enter_frame v s
  exact ⟨h.congr h1 h2 h3 h4, h1, fun w hw => by rw [h2]; exact hw, fun w q hw => by rw [h2]; exact hw⟩

theorem setup_post {m : Mod σ} (hm : Lawful m) (v : Var) {s : S σ} (h : Inv m s) :
    Post m s.st s (setup m v s) :=
  ⟨setup_inv hm v h, (setup_frame m v s).1, fun w hw => setup_mono m v w s hw, fun w q hw => by
    by_cases e : w = v
    · subst e; rw [setup_void]; exact hw
    · rw [(setup_frame m v s).2.2.2.2.2 w e]; exact hw⟩

theorem finish_post {m : Mod σ} (v : Var) {s : S σ} (h : Inv m s) : Post m s.st s (finish v s) :=
  ⟨h.congr rfl rfl rfl rfl, rfl, fun _ h => h, fun _ _ h => h⟩

/-- Entering a `*_Var` function. -/
theorem begin_post {m : Mod σ} (hm : Lawful m) (v : Var) {s : S σ} (h : Inv m s) :
    Post m s.st s (setup m v (enter v s)) := by
  have h1 := enter_post (m := m) v h
  have h2 := setup_post hm v h1.inv
  rw [h1.st] at h2
  exact h1.trans h2

theorem plain_sat {m : Mod σ} {u : Prop} {t : Task} {v : Var} {s : S σ}
    (h : Inv m s) (hm : Lawful m) (hr : u ∨ alone t v = true ∨ Ready s)
    (hv : t = .getPtr → (s.va v).void = none) :
    (plain m t v s).Sat u (fun s' _ => Post m s.st s s' ∧ v.allows t = true)
      (fun s' => Post m s.st s s' ∧ v.allows t = false) := by
  have h1 := begin_post hm v h
  unfold plain
  have hb := plainBody_sat (u := u) (t := t) (v := v) h1.inv hm
    (fun hs => setup_init m v _ hs) (hr.imp_right (Or.imp_right h1.ready))
    (fun e => by rw [setup_void, (enter_frame v s).2.1]; exact hv e)
  cases e : plainBody m t v (setup m v (enter v s)) with
  | ok s2 a =>
    rw [e] at hb
    have h2 : Post m s.st s s2 := h1.trans (h1.st ▸ hb)
    refine ⟨h2.trans (h2.st ▸ finish_post v h2.inv), ?_⟩
    by_contra hc
    have hc' : v.allows t = false := by simpa using hc
    unfold plainBody at e
    rw [if_pos hc'] at e
    cases e
  | threw s2 =>
    rw [e] at hb
    obtain ⟨rfl, ha⟩ := hb
    exact ⟨h1, ha⟩
  | ub => rw [e] at hb; exact hb

theorem notify_sat {m : Mod σ} {u : Prop} {v : Var} {s : S σ}
    (h : Inv m s) (hm : Lawful m) (ha : v.allows .rmUpdate = true)
    (hr : u ∨ alone .rmUpdate v = true ∨ Ready s) (Q : S σ → Prop) :
    (notify m v s).Sat u (fun s' _ => Post m s.st s s') Q := by
  unfold notify
  split
  · exact Post.refl h
  split
  · exact Post.refl h
  exact (plain_sat h hm hr nofun).mono id (fun _ _ h => h.1)
    (fun _ h => by rw [ha] at h; simp at h)

theorem announces_allows {v w : Var} (h : v.announces = some w) : w.allows .rmUpdate = true := by
  cases v <;> simp [Var.announces] at h <;> subst h <;> rfl

theorem rmSet_sat {m : Mod σ} {u : Prop} {v : Var} {s : S σ} {st : σ}
    (h : Inv m s) (hm : Lawful m) (hk : Keeps m s.st st)
    (hr : u ∨ (∀ w, v.announces = some w → alone .rmUpdate w = true) ∨ Ready s) (Q : S σ → Prop) :
    (rmSet m v st s).Sat u (fun s' _ => Post m st s s') Q := by
  unfold rmSet
  split
  · next w hw =>
    exact (notify_sat (h.keep hk) hm (announces_allows hw)
      (hr.imp_right (Or.imp_left fun hh => hh w hw)) Q).mono id
      (fun _ _ h => ⟨h.inv, h.st, h.mono, h.keep⟩) (fun _ h => h)
  · exact ⟨h.keep hk, rfl, fun _ h => h, fun _ _ h => h⟩

/-- The module's state after its setter for `v` was called with the content of `VarExchange`. -/
def stored (m : Mod σ) (v : Var) (e : Ex) (st : σ) : σ :=
  match v.ctype with
  | .int => m.setInt st v e.ivar
  | .bool => m.setOn st e.bvar
  | .string => m.setStr st v e.str
  | .strings => st
  | .double => if v.scalar = true then m.setNum st v e.dvar else m.setVec st v e.data

theorem stored_keeps {m : Mod σ} (hm : Lawful m) (v : Var) (e : Ex) (st : σ) :
    Keeps m st (stored m v e st) := by
  unfold stored
  split
  · exact hm.setInt _ _ _
  · exact hm.setOn _ _
  · exact hm.setStr _ _ _
  · exact Keeps.refl m st
  · split
    · exact hm.setNum _ _ _
    · exact hm.setVec _ _ _

/-- A setter called from within its own `*_Var` function is not announced back. -/
theorem rmSet_quiet (m : Mod σ) (v : Var) (s : S σ) (st : σ) (h : s.cur = some v)
    (hv : v ≠ .DensityUser) : rmSet m v st s = .ok { s with st := st } () := by
  cases v <;> simp [rmSet, Var.announces, notify, h] at hv ⊢

end Verif.BMI
