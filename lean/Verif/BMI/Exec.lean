import Verif.BMI.Calls

/-!
# Every call keeps the invariant
-/

namespace Verif.BMI

variable {σ : Type}

theorem getRaw_sat {m : Mod σ} {u : Prop} {v : Var} {s : S σ} (h : Inv m s) (hm : Lawful m)
    (hu : u ∨ v ≠ .ErrorString) :
    (getValueRaw m v s).Sat u (fun s' _ => Post m s.st s s' ∧ v.flags.2.1 = true)
      (fun s' => Post m s.st s s') := by
  unfold getValueRaw
  have hg := get_sat (u := False) (v := v) h hm
  cases e1 : ensure m v s with
  | ub => rw [e1] at hg; exact hg.elim
  | threw s1 => rw [e1] at hg; exact hg.1
  | ok s1 a =>
    rw [e1, R.bind_ok] at hg
    rw [R.bind_ok]
    cases e2 : varFn m .getVar v s1 with
    | ub => rw [e2] at hg; exact hg.elim
    | threw s2 => rw [e2] at hg; exact hg.1
    | ok s2 b =>
      rw [e2] at hg
      rw [R.bind_ok]
      have hub : ∀ k, copyOut s2.ex k = none → u := fun k hk =>
        hu.resolve_right fun hv => get_shape h hm e1 e2 hv k hk
      split
      · refine R.Sat.bind (ensure_sat hg.1.inv hm) fun s3 _ h3 => ?_
        have h4 : Post m s.st s s3 := hg.1.trans (hg.1.st ▸ h3.1)
        split
        · exact ⟨h4, hg.2⟩
        · exact h4
        · exact hub _ (by assumption)
      · split
        · exact hg
        · exact hg.1
        · exact hub _ (by assumption)

theorem getPtr_allows (v : Var) : v.allows .getPtr = (v.flags.2.2 || v == .Components) := by
  cases v <;> rfl

theorem getPtr_sat {m : Mod σ} {u : Prop} {v : Var} {s : S σ} (h : Inv m s) (hm : Lawful m) :
    (getValuePtr m v s).Sat u
      (fun s' p => Post m s.st s s' ∧ p = (s'.va v).void ∧ v.allows .getPtr = true)
      (fun s' => Post m s.st s s' ∧ v.allows .getPtr = false) := by
  unfold getValuePtr
  split
  · next hv =>
    rw [varFn_plain _ _ _ (by decide)]
    exact R.Sat.bind (plain_sat h hm (.inr (.inl rfl)) fun _ => hv) fun s' _ h' => ⟨h'.1, rfl, h'.2⟩
  · next hv =>
    refine ⟨Post.refl h, rfl, ?_⟩
    obtain ⟨q, hq⟩ := Option.ne_none_iff_exists'.1 hv
    rw [getPtr_allows, ((h v).point q hq).2.2.2.1]; rfl

/-- A `SetValue` that stores its argument in the exchange object with `f`. -/
theorem setEx_sat {m : Mod σ} {u : Prop} {v : Var} {s : S σ} (h : Inv m s) (hm : Lawful m)
    (f : Ex → Ex) (hr : u ∨ Ready s)
    (hd : u ∨ (v.grid = true → ∀ e, (f e).data.length ≤ m.size s.st v)) :
    ((ensure m v s).bind fun s _ => varFn m .setVar v { s with ex := f s.ex }).Sat u
      (fun s' _ => (∃ e, Post m (stored m v (f e) s.st) s s') ∧ v.flags.1 = true)
      (fun s' => Post m s.st s s' ∧ v.flags.1 = false) := by
  refine R.Sat.bind (ensure_sat h hm) fun s1 _ h1 => ?_
  have hi : Inv m { s1 with ex := f s1.ex } := h1.1.inv.congr rfl rfl rfl rfl
  have hp : Post m s.st s { s1 with ex := f s1.ex } := ⟨hi, h1.1.st, h1.1.mono, h1.1.keep⟩
  refine (varFn_set_sat hi hm h1.2.1 (hr.imp_right hp.ready)
    (hd.imp_right fun hd hg => ?_)).mono id (fun s2 _ h2 => ?_) (fun s2 h2 => ?_)
  · show (f s1.ex).data.length ≤ m.size s1.st v
    rw [h1.1.st]; exact hd hg _
  · refine ⟨⟨s1.ex, hp.trans (h2.1.cast (congrArg (stored m v _) h1.1.st))⟩, h2.2⟩
  · refine ⟨hp.trans (h2.1.cast h1.1.st), h2.2⟩

theorem setVec_sat {m : Mod σ} {u : Prop} {v : Var} {l : List ℚ} {s : S σ} (h : Inv m s)
    (hm : Lawful m) (hr : u ∨ Ready s) :
    (setValueVec m v l s).Sat u
      (fun s' _ => ((∃ e : Ex, Post m (stored m v { e with data := l } s.st) s s') ∧ v.flags.1 = true ∧
          (v.grid = true → l.length = m.size s.st v)) ∨
        (Post m s.st s s' ∧ (v.grid = true → l.length ≠ m.size s.st v)))
      (fun s' => Post m s.st s s' ∧ v.flags.1 = false) := by
  unfold setValueVec
  refine R.Sat.bind (ensure_sat h hm) fun s1 _ h1 => ?_
  have hdim : v.grid = true → (s1.va v).dim = m.size s.st v := by
    intro hg
    have hv' : v.isVec = true ∧ v ≠ .SelectedOutput := by simpa [Var.grid] using hg
    have hs : v.stays = true := by
      cases v <;> simp [Var.isVec, Var.ctype, Var.scalar, Var.stays] at hv' ⊢
    have := ((h1.1.inv v).shape hv'.1 hv'.2 (h1.2.1 hs)).2.1
    rw [this, h1.1.st]
  split
  · next hne => exact .inr ⟨h1.1, fun hg e => hne (by rw [hdim hg, e])⟩
  next he =>
  have he : (s1.va v).dim = l.length := by simpa using he
  have hi : Inv m { s1 with ex := { s1.ex with data := l } } := h1.1.inv.congr rfl rfl rfl rfl
  have hp : Post m s.st s { s1 with ex := { s1.ex with data := l } } := ⟨hi, h1.1.st, h1.1.mono, h1.1.keep⟩
  refine (varFn_set_sat hi hm h1.2.1 (hr.imp_right hp.ready) (.inr fun hg => ?_)).mono id
    (fun s2 _ h2 => ?_) (fun s2 h2 => ?_)
  · show l.length ≤ m.size s1.st v
    rw [← he, hdim hg, h1.1.st]
  · refine .inl ⟨⟨s1.ex, hp.trans (h2.1.cast (congrArg (stored m v _) h1.1.st))⟩, h2.2,
      fun hg => by rw [← he, hdim hg]⟩
  · refine ⟨hp.trans (h2.1.cast h1.1.st), h2.2⟩

/-- The exchange object holds what the user passed through `void*` for `v`. -/
def Carries (m : Mod σ) (st : σ) (v : Var) (src : Value) (e : Ex) : Prop :=
  match v.ctype with
  | .int => src = .int e.ivar
  | .bool => src = .bool e.bvar
  | .string => src = .chars e.str
  | .strings => False
  | .double =>
    if v.scalar = true then ∃ l, src = .vec l ∧ l.head? = some e.dvar
    else if m.size st v = 1 then ∃ l, src = .vec l ∧ l.head? = some e.dvar
    else ∃ l, src = .vec l ∧ m.size st v ≤ l.length ∧ e.data = l.take (m.size st v)

theorem copyIn_some {a : Variant} {e e' : Ex} {src : Value} (h : copyIn a e src = some (some e')) :
    (∃ i, a.ctype = some .int ∧ src = .int i ∧ e' = { e with ivar := i }) ∨
    (∃ b, a.ctype = some .bool ∧ src = .bool b ∧ e' = { e with bvar := b }) ∨
    (∃ l, a.ctype = some .string ∧ src = .chars l ∧ e' = { e with str := l }) ∨
    (∃ l x, a.ctype = some .double ∧ src = .vec l ∧ l.head? = some x ∧
      a.nbytes / a.itemsize = 1 ∧ e' = { e with dvar := x }) ∨
    (∃ l, a.ctype = some .double ∧ src = .vec l ∧ 1 < a.nbytes / a.itemsize ∧
      a.nbytes / a.itemsize ≤ l.length ∧ e' = { e with data := l.take (a.nbytes / a.itemsize) }) := by
  unfold copyIn at h
  split at h
  · cases h
  dsimp only at h
  split at h
  · next b hc =>
    split at h <;> simp at h
    exact .inr (.inl ⟨b, hc, rfl, h.symm⟩)
  · next i hc =>
    split at h <;> simp at h
    exact .inl ⟨i, hc, rfl, h.symm⟩
  · next l hc =>
    split at h
    · next h1 =>
      cases hh : l.head? with
      | none => rw [hh] at h; cases h
      | some x =>
        rw [hh] at h; simp at h
        exact .inr (.inr (.inr (.inl ⟨l, x, hc, rfl, hh, h1, h.symm⟩)))
    · split at h
      · next h1 =>
        split at h <;> simp at h
        next h2 => exact .inr (.inr (.inr (.inr ⟨l, hc, rfl, h1, h2, h.symm⟩)))
      · cases h
  · next l hc =>
    simp at h
    exact .inr (.inr (.inl ⟨l, hc, rfl, h.symm⟩))
  · cases h

theorem copyIn_fine {a : Variant} {e : Ex} {src : Value} (h : a.itemsize ≠ 0)
    (hl : match src with | .vec l => a.nbytes / a.itemsize ≤ l.length | _ => True) :
    copyIn a e src ≠ none := by
  unfold copyIn
  rw [if_neg h]
  dsimp only
  split
  · simp
  · simp
  · next l _ =>
    simp only at hl
    split
    · cases l with
      | nil => simp_all
      | cons x xs => simp
    · split
      · simp
      · simp
  · simp
  · simp

theorem setRaw_sat {m : Mod σ} {u : Prop} {v : Var} {x : Value} {s : S σ} (h : Inv m s)
    (hm : Lawful m) (hr : u ∨ Ready s) (hs : u ∨ (Op.setRaw v x).Safe m s) :
    (setValueRaw m v x s).Sat u
      (fun s' _ => (∃ e : Ex, Post m (stored m v e s.st) s s' ∧ Carries m s.st v x e) ∧
        v.flags.1 = true)
      (fun s' => Post m s.st s s') := by
  unfold setValueRaw
  refine R.Sat.bind (ensure_sat h hm) fun s1 _ h1 => ?_
  have hgrid : v.grid = true → (s1.va v).nbytes = 8 * m.size s.st v ∧ (s1.va v).itemsize = 8 := by
    intro hg
    have hv' : v.isVec = true ∧ v ≠ .SelectedOutput := by simpa [Var.grid] using hg
    have hs : v.stays = true := by
      cases v <;> simp [Var.isVec, Var.ctype, Var.scalar, Var.stays] at hv' ⊢
    have := (h1.1.inv v).shape hv'.1 hv'.2 (h1.2.1 hs)
    rw [this.2.2.2, this.2.2.1, h1.1.st]; exact ⟨rfl, rfl⟩
  have hdim : v.grid = true → (s1.va v).nbytes / (s1.va v).itemsize = m.size s.st v := by
    intro hg
    obtain ⟨e1, e2⟩ := hgrid hg
    rw [e1, e2]; omega
  have hone : v.stays = true → (v.ctype = .int ∨ v.ctype = .bool ∨ v.scalar = true) →
      (s1.va v).itemsize ≠ 0 ∧ (s1.va v).nbytes / (s1.va v).itemsize = 1 := by
    intro hst hk
    obtain ⟨-, h2, h3⟩ := (h1.1.inv v).one hk (h1.2.1 hst)
    exact ⟨h2, by rw [h3]; exact Nat.div_self (by omega)⟩
  have htyp := (h1.1.inv v).typ.imp And.left And.left
  split
  · next e he =>
    by_cases hset : v.flags.1 = true
    swap
    · -- refused
      have hi : Inv m { s1 with ex := e } := h1.1.inv.congr rfl rfl rfl rfl
      have hp : Post m s.st s { s1 with ex := e } := ⟨hi, h1.1.st, h1.1.mono, h1.1.keep⟩
      have ha : v.allows .setVar = false := by
        cases v <;> simp [Var.allows, Var.flags] at hset ⊢
      unfold varFn setBody
      rw [if_pos rfl, if_pos ha]
      exact hp.trans ((begin_post hm v hi).cast h1.1.st)
    have hst := set_stays hset
    -- what was stored
    have hcar : Carries m s.st v x e := by
      have hfix : ∀ t, (s1.va v).ctype = some t → v.ctype = t := by
        intro t ht; rw [ht] at htyp; simp at htyp; exact htyp.symm
      rcases copyIn_some he with ⟨i, hc, rfl, rfl⟩ | ⟨b, hc, rfl, rfl⟩ | ⟨l, hc, rfl, rfl⟩ |
        ⟨l, y, hc, rfl, hh, hd, rfl⟩ | ⟨l, hc, rfl, hd, hl, rfl⟩
      · unfold Carries; rw [hfix _ hc]
      · unfold Carries; rw [hfix _ hc]
      · unfold Carries; rw [hfix _ hc]
      · unfold Carries; rw [hfix _ hc]
        by_cases hsc : v.scalar = true
        · simp only [hsc, if_true]; exact ⟨l, rfl, hh⟩
        · have hg : v.grid = true := by
            have := hfix _ hc
            cases v <;> simp [Var.ctype, Var.scalar, Var.flags, Var.grid, Var.isVec] at this hsc hset ⊢
          have := hdim hg
          simp only [hsc]
          rw [if_neg (by decide), if_pos (by omega)]
          exact ⟨l, rfl, hh⟩
      · unfold Carries; rw [hfix _ hc]
        by_cases hsc : v.scalar = true
        · exfalso
          have := hone (by cases v <;> simp [Var.scalar, Var.stays] at hsc ⊢) (.inr (.inr hsc))
          omega
        · have hg : v.grid = true := by
            have := hfix _ hc
            cases v <;> simp [Var.ctype, Var.scalar, Var.flags, Var.grid, Var.isVec] at this hsc hset ⊢
          have := hdim hg
          simp only [hsc]
          rw [if_neg (by decide), if_neg (by omega)]
          exact ⟨l, rfl, by omega, by rw [this]⟩
    have hi : Inv m { s1 with ex := e } := h1.1.inv.congr rfl rfl rfl rfl
    have hp : Post m s.st s { s1 with ex := e } := ⟨hi, h1.1.st, h1.1.mono, h1.1.keep⟩
    refine (varFn_set_sat hi hm h1.2.1 (hr.imp_right hp.ready) ?_).mono id
      (fun s2 _ h2 => ?_) (fun s2 h2 => ?_)
    · refine hs.imp_right fun hs hg => ?_
      show e.data.length ≤ m.size s1.st v
      rw [h1.1.st]
      have hv' : v.isVec = true ∧ v ≠ .SelectedOutput := by simpa [Var.grid] using hg
      have hct : v.ctype = .double ∧ v.scalar = false := by
        cases v <;> simp [Var.isVec, Var.ctype, Var.scalar] at hv' ⊢
      unfold Carries at hcar
      rw [hct.1] at hcar
      simp only [hct.2, Bool.false_eq_true, if_false] at hcar
      have hs1 : m.size s.st v ≠ 1 := by
        simp only [Op.Safe, hct.1] at hs
        cases x <;> simp [hct.2] at hs
        exact hs.2.1
      rw [if_neg hs1] at hcar
      obtain ⟨l, -, hl, hd⟩ := hcar
      rw [hd, List.length_take]; omega
    · refine ⟨⟨e, hp.trans (h2.1.cast (congrArg (stored m v _) h1.1.st)), hcar⟩, h2.2⟩
    · rw [h2.2] at hset; cases hset
  · exact h1.1
  · -- division by zero or a source too short
    next he =>
    refine hs.resolve_right fun hs' => ?_
    clear h hm hr h1 hs
    rename' hs' => hs
    simp only [Op.Safe] at hs
    split at hs
    · rename_i hc
      have hst : v.stays = true := by
        cases v <;> simp only [Var.ctype, reduceCtorEq] at hc <;> first | rfl | exact absurd rfl hs
      obtain ⟨h2, h3⟩ := hone hst (.inl hc)
      exact copyIn_fine h2 trivial he
    · rename_i hc
      have hst : v.stays = true := by
        cases v <;> simp only [Var.ctype, reduceCtorEq] at hc <;> rfl
      obtain ⟨h2, h3⟩ := hone hst (.inr (.inl hc))
      exact copyIn_fine h2 trivial he
    · rename_i l hc
      split at hs
      · next hsc =>
        have hst : v.stays = true := by
          cases v <;> simp only [Var.scalar, Bool.false_eq_true] at hsc <;> rfl
        obtain ⟨h2, h3⟩ := hone hst (.inr (.inr hsc))
        refine copyIn_fine h2 ?_ he
        have := List.length_pos_iff.2 hs
        simp only [h3]; omega
      · next hsc =>
        have hg : v.grid = true := by
          cases v <;> simp [Var.ctype, Var.scalar, Var.grid, Var.isVec] at hc hsc hs ⊢
        refine copyIn_fine (by rw [(hgrid hg).2]; decide) ?_ he
        simp only [hdim hg]; exact hs.2.2
    · exact hs

end Verif.BMI
