import Verif.BMI.Steps

/-!
# What the writing calls preserve
-/

namespace Verif.BMI

variable {σ : Type}

theorem R.Sat.and {α : Type} {u u' : Prop} {P P' : S σ → α → Prop} {Q Q' : S σ → Prop} {r : R σ α}
    (h : r.Sat u P Q) (h' : r.Sat u' P' Q') :
    r.Sat (u ∧ u') (fun s a => P s a ∧ P' s a) (fun s => Q s ∧ Q' s) := by
  cases r <;> exact ⟨h, h'⟩

theorem copyTo_ex {v : Var} {l : List ℚ} {s : S σ} {Q : S σ → Prop} :
    (copyTo v l s).Sat True (fun s' _ => s'.ex = s.ex) Q := by
  unfold copyTo; cases (s.va v).buf.copy l <;> simp [R.Sat]

theorem notify_ex {m : Mod σ} (hm : Lawful m) (s : S σ) :
    (notify m .DensityCalculated s).Sat True
      (fun s' _ => s'.ex.data = s.ex.data ∨ s'.ex.data.length = m.nxyz) (fun _ => True) := by
  unfold notify
  split
  · exact .inl rfl
  split
  · exact .inl rfl
  unfold plain plainBody
  rw [if_neg (by decide)]
  refine R.Sat.bind (P := fun s' _ => s'.ex.data.length = m.nxyz) ?_ fun s2 _ h2 => .inr h2
  refine R.Sat.bind (P := fun _ _ => True) (copyTo_ex.mono id (fun _ _ _ => trivial) fun _ h => h) fun s1 _ _ => ?_
  simp only [fetch]
  refine copyTo_ex.mono id (fun s' _ h => ?_) fun _ h => h
  rw [h]
  exact hm.len _ .DensityCalculated rfl

/-- Storing the new string of `FilePrefix` in its variant. -/
theorem prefix_inv {m : Mod σ} {s : S σ} (h : Inv m s) (f : Variant → Variant)
    (hf : ∀ a, (f a).init = a.init ∧ (f a).buf = a.buf ∧ (f a).void = a.void ∧
      ((f a).ctype = a.ctype ∧ (f a).set = a.set ∧ (f a).get = a.get ∧ (f a).ptr = a.ptr ∨
        (f a).ctype = some .string ∧ (f a).set = true ∧ (f a).get = true ∧ (f a).ptr = false)) :
    Inv m (s.upd .FilePrefix f) := by
  refine h.upd _ f ?_
  obtain ⟨h1, h2, h3, h4⟩ := hf (s.va .FilePrefix)
  have hl := (h .FilePrefix).live rfl
  rw [← h1] at hl
  obtain ⟨i1, i2, i3, i4, i5, i6, i7, i8, i9, i10⟩ := h .FilePrefix
  refine ⟨by simp [hl], by simp [hl], by simp [hl], by rw [h2]; exact i4, by rw [h1]; exact i5, ?_, by simp [hl],
    by simp, fun _ => hl, ?_⟩
  rotate_left
  · rcases h4 with ⟨e1, e2, e3, e4⟩ | ⟨e1, e2, e3, e4⟩ <;> rw [e1, e2, e3, e4]
    · exact i10
    · exact .inr ⟨rfl, rfl⟩
  rw [h1, h2, h3]; exact i6

/-- Storing a number in a variant that is not a constant of the module. -/
theorem number_inv {m : Mod σ} {s : S σ} (h : Inv m s) (v : Var) (f : Variant → Variant)
    (hv : v ≠ .ComponentCount ∧ v ≠ .GridCellCount)
    (hf : ∀ a, f a = { a with dvar := (f a).dvar, ivar := (f a).ivar, bvar := (f a).bvar }) :
    Inv m (s.upd v f) := by
  refine h.upd _ f ?_
  rw [hf]
  obtain ⟨i1, i2, i3, i4, i5, i6, i7, i8, i9, i10⟩ := h v
  exact ⟨i1, i2, i3, i4, i5, i6, fun h => by simp [hv] at h, i8, i9, i10⟩

theorem upd_post {m : Mod σ} {s : S σ} {v : Var} {f : Variant → Variant} (h : Inv m (s.upd v f))
    (hi : (f (s.va v)).init = (s.va v).init) (hq : (f (s.va v)).void = (s.va v).void) :
    Post m s.st s (s.upd v f) := by
  refine ⟨h, rfl, fun w hw => ?_, fun w q hw => ?_⟩ <;> by_cases e : w = v
  · subst e; rw [upd_same, hi]; exact hw
  · rw [upd_other _ _ _ _ e]; exact hw
  · subst e; rw [upd_same, hq]; exact hw
  · rw [upd_other _ _ _ _ e]; exact hw

theorem refresh_sat' {m : Mod σ} {u : Prop} {Q : S σ → Prop} {v : Var} {s : S σ}
    (h : Inv m s) (hm : Lawful m) (hv : v.grid = true) (hl : u ∨ (s.va v).init = true) :
    (refresh m v s).Sat u (fun s' _ => Post m s.st s s') Q :=
  (refresh_sat h hm hv hl).mono id (fun _ _ h => h.1) fun _ h => h

/-- The tail of `SetVar` for a vector: the values go to the variant. -/
theorem copyEx_sat {m : Mod σ} {u : Prop} {Q : S σ → Prop} {v : Var} {s : S σ}
    (h : Inv m s) (hm : Lawful m) (hv : v.grid = true) (hg : v ≠ .Gfw)
    (hi : (s.va v).init = true) (hd : u ∨ s.ex.data.length ≤ m.size s.st v) :
    (copyTo v s.ex.data s).Sat u (fun s' _ => Post m s.st s s') Q := by
  have hv' : v.isVec = true ∧ v ≠ .SelectedOutput := by simpa [Var.grid] using hv
  refine (copyTo_sat h (fun e => absurd e hg) hm (hd.imp_right fun hd => ?_)).mono id (fun _ _ h => h.1)
    fun _ h => h
  rw [((h v).shape hv'.1 hv'.2 hi).1]; exact hd

theorem setBody_sat {m : Mod σ} {u : Prop} {v : Var} {s : S σ}
    (h : Inv m s) (hm : Lawful m) (hi : v.stays = true → (s.va v).init = true)
    (hc : v ≠ .DensityUser → s.cur = some v)
    (hr : u ∨ Ready s) (hd : u ∨ (v.grid = true → s.ex.data.length ≤ m.size s.st v)) :
    (setBody m v s).Sat u (fun s' _ => Post m (stored m v s.ex s.st) s s' ∧ v.flags.1 = true)
      (fun s' => s' = s ∧ v.flags.1 = false) := by
  unfold setBody
  split
  · next ha =>
    exact ⟨rfl, by cases v <;> simp [Var.allows, Var.flags] at ha ⊢⟩
  next ha =>
  have hset : v.flags.1 = true := by cases v <;> simp [Var.allows, Var.flags] at ha ⊢
  have hk := stored_keeps hm v s.ex s.st
  -- the setter itself, for everything but `DensityUser`
  have quiet : ∀ w, w = v → w ≠ .DensityUser → ∀ st', Keeps m s.st st' →
      rmSet m w st' s = .ok { s with st := st' } () ∧ Post m st' s { s with st := st' } := by
    rintro w rfl hw st' hk'
    exact ⟨rmSet_quiet m w s st' (hc hw) hw, h.keep hk', rfl, fun _ h => h, fun _ _ h => h⟩
  have weaken : ∀ {r : R σ Unit} {st' : σ}, st' = stored m v s.ex s.st →
      r.Sat u (fun s' _ => Post m st' s s') (fun _ => False) →
      r.Sat u (fun s' _ => Post m (stored m v s.ex s.st) s s' ∧ v.flags.1 = true)
        (fun s' => s' = s ∧ v.flags.1 = false) := by
    rintro r st' rfl hh
    exact hh.mono id (fun _ _ h => ⟨h, hset⟩) (fun _ h => h.elim)
  split
  · -- Concentrations
    obtain ⟨e, hp⟩ := quiet _ rfl (by decide) _ hk
    simp only [stored, Var.ctype] at e hp
    refine weaken (st' := m.setVec s.st .Concentrations s.ex.data) rfl ?_
    rw [if_neg (by decide)] at e hp
    rw [e, R.bind_ok]
    exact (fetch_sat' hp.inv hm (fun e => hp.mono _ (hi e))).mono id
      (fun s' _ h' => hp.trans (hp.st ▸ h')) fun _ h => h
  · -- DensityUser
    refine weaken (st' := m.setVec s.st .DensityUser s.ex.data) rfl ?_
    have hk' : Keeps m s.st (m.setVec s.st .DensityUser s.ex.data) := hm.setVec _ _ _
    have hn : (rmSet m .DensityUser (m.setVec s.st .DensityUser s.ex.data) s).Sat u
        (fun s' _ => Post m (m.setVec s.st .DensityUser s.ex.data) s s' ∧
          (s'.ex.data = s.ex.data ∨ s'.ex.data.length = m.nxyz)) (fun _ => False) :=
      ((rmSet_sat h hm hk' (hr.imp_right .inr) (fun _ => False)).and (notify_ex hm _)).mono (fun h => h.1)
        (fun _ _ h => h) (fun _ h => h.1)
    refine R.Sat.bind hn fun s1 _ h1 => ?_
    have hd1 : u ∨ s1.ex.data.length ≤ m.size s1.st .DensityUser := by
      rcases h1.2 with e | e
      · rw [e]; exact hd.imp_right fun hd => hd rfl
      · exact .inr (by rw [e]; exact Nat.le_refl _)
    refine R.Sat.bind (copyEx_sat h1.1.inv hm rfl (by decide) (h1.1.mono _ (hi rfl)) hd1)
      fun s2 _ h2 => ?_
    have h12 := h1.1.trans h2
    exact (refresh_sat' h12.inv hm rfl (hr.imp_right fun r => (h12.ready r).1)).mono id
      (fun s' _ h' => (h1.1.st ▸ h12.trans (h12.st ▸ h'))) fun _ h => h
  · -- SaturationUser
    obtain ⟨e, hp⟩ := quiet _ rfl (by decide) _ hk
    simp only [stored, Var.ctype] at e hp
    refine weaken (st' := m.setVec s.st .SaturationUser s.ex.data) rfl ?_
    rw [if_neg (by decide)] at e hp
    rw [e, R.bind_ok]
    refine R.Sat.bind (copyEx_sat hp.inv hm rfl (by decide) (hp.mono _ (hi rfl))
      (hd.imp_right fun hd => hd rfl)) fun s2 _ h2 => ?_
    have h12 := hp.trans h2
    exact (refresh_sat' h12.inv hm rfl (hr.imp_right fun r => (h12.ready r).1)).mono id
      (fun s' _ h' => (hp.st ▸ h12.trans (h12.st ▸ h'))) fun _ h => h
  · -- Porosity
    obtain ⟨e, hp⟩ := quiet _ rfl (by decide) _ hk
    simp only [stored, Var.ctype] at e hp
    refine weaken (st' := m.setVec s.st .Porosity s.ex.data) rfl ?_
    rw [if_neg (by decide)] at e hp
    rw [e, R.bind_ok]
    refine R.Sat.bind (copyEx_sat hp.inv hm rfl (by decide) (hp.mono _ (hi rfl))
      (hd.imp_right fun hd => hd rfl)) fun s2 _ h2 => ?_
    have h12 := hp.trans h2
    refine R.Sat.bind (refresh_sat' h12.inv hm rfl (hr.imp_right fun r => (h12.ready r).1))
      fun s3 _ h3 => ?_
    have h13 := h12.trans h3
    exact (refresh_sat' h13.inv hm rfl (hr.imp_right fun r => (h13.ready r).2)).mono id
      (fun s' _ h' => (hp.st ▸ h12.st ▸ h13.trans (h13.st ▸ h'))) fun _ h => h
  · -- Time
    obtain ⟨e, hp⟩ := quiet _ rfl (by decide) _ hk
    simp only [stored, Var.ctype] at e hp
    refine weaken (st' := m.setNum s.st .Time s.ex.dvar) rfl ?_
    rw [if_pos (by decide)] at e hp
    rw [e, R.bind_ok]
    exact hp.trans (upd_post (number_inv hp.inv .Time _ (by decide) fun _ => rfl) rfl rfl)
  · -- TimeStep
    obtain ⟨e, hp⟩ := quiet _ rfl (by decide) _ hk
    simp only [stored, Var.ctype] at e hp
    refine weaken (st' := m.setNum s.st .TimeStep s.ex.dvar) rfl ?_
    rw [if_pos (by decide)] at e hp
    rw [e, R.bind_ok]
    exact hp.trans (upd_post (number_inv hp.inv .TimeStep _ (by decide) fun _ => rfl) rfl rfl)
  · -- SelectedOutputOn
    refine weaken (st' := m.setOn s.st s.ex.bvar) rfl ?_
    simp only
    rw [rmSet_quiet _ .SelectedOutputOn _ _ (by exact hc (by decide)) (by decide)]
    have h1 : Inv m (s.upd .SelectedOutputOn (fun a =>
        { a with bvar := s.ex.bvar, ivar := if s.ex.bvar = true then 1 else 0 })) :=
      number_inv h .SelectedOutputOn _ (by decide) fun _ => rfl
    refine ⟨(h1.congr rfl rfl rfl rfl).keep (s := { (s.upd .SelectedOutputOn (fun a =>
        { a with bvar := s.ex.bvar, ivar := if s.ex.bvar = true then 1 else 0 })) with ex := _ })
      (hm.setOn _ _), rfl, fun w hw => ?_, fun w q hw => ?_⟩ <;> by_cases e : w = .SelectedOutputOn
    · subst e; simpa using hw
    · simp only [upd_other _ _ _ _ e]; exact hw
    · subst e; simpa using hw
    · simp only [upd_other _ _ _ _ e]; exact hw
  · -- NthSelectedOutput
    obtain ⟨e, hp⟩ := quiet _ rfl (by decide) _ hk
    simp only [stored, Var.ctype] at e hp
    refine weaken (st' := m.setInt s.st .NthSelectedOutput s.ex.ivar) rfl ?_
    rw [e]; exact hp
  · -- FilePrefix
    refine weaken (st' := m.setStr s.st .FilePrefix s.ex.str) rfl ?_
    rw [rmSet_quiet _ .FilePrefix _ _ (by exact hc (by decide)) (by decide), R.bind_ok]
    have h1 : Inv m (s.upd .FilePrefix
        (fun a => a.basic .FilePrefix s.ex.str.length s.ex.str.length)) :=
      prefix_inv h _ fun _ => ⟨rfl, rfl, rfl, .inr ⟨rfl, rfl, rfl, rfl⟩⟩
    have h2 := h1.keep (st := m.setStr s.st .FilePrefix s.ex.str) (hm.setStr _ _ _)
    have h3 := prefix_inv h2 (fun a => { a with str := s.ex.str }) fun _ => ⟨rfl, rfl, rfl, .inl ⟨rfl, rfl, rfl, rfl⟩⟩
    refine ⟨h3, rfl, fun w hw => ?_, fun w q hw => ?_⟩ <;> by_cases e : w = .FilePrefix
    · subst e; simpa [Variant.basic] using hw
    · simp only [S.upd, if_neg e]; exact hw
    · subst e; simpa [Variant.basic] using hw
    · simp only [S.upd, if_neg e]; exact hw
  · -- Pressure, Temperature
    have hv : v = .Pressure ∨ v = .Temperature := by
      cases v <;> simp_all [Var.allows, Var.flags]
    have hD : v ≠ .DensityUser := by rcases hv with rfl | rfl <;> decide
    have hG : v.grid = true := by rcases hv with rfl | rfl <;> rfl
    have hs : stored m v s.ex s.st = m.setVec s.st v s.ex.data := by rcases hv with rfl | rfl <;> rfl
    obtain ⟨e, hp⟩ := quiet _ rfl hD _ hk
    rw [hs] at e hp
    refine weaken (st' := m.setVec s.st v s.ex.data) hs.symm ?_
    rw [e, R.bind_ok]
    refine (copyEx_sat hp.inv hm hG (by rcases hv with rfl | rfl <;> decide)
      (hp.mono _ (hi (by rcases hv with rfl | rfl <;> rfl))) (hd.imp_right fun hd => ?_)).mono id
      (fun s' _ h' => hp.trans h') fun _ h => h
    rw [Keeps.size (hm.setVec _ _ _) v (by rcases hv with rfl | rfl <;> decide)]
    exact hd hG

end Verif.BMI
