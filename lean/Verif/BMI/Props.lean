import Verif.BMI.Values

/-!
# Properties of the BMI layer
-/

namespace Verif.BMI

variable {σ : Type}

theorem R.Sat.get {α : Type} {P : S σ → α → Prop} {r : R σ α}
    (h : r.Sat False P (fun _ => False)) : ∃ s a, r = .ok s a ∧ P s a := by
  cases r with
  | ok s a => exact ⟨s, a, rfl, h⟩
  | threw s => exact h.elim
  | ub => exact h.elim

/-! ### Counts and lists of names (C39) -/

theorem seen_inv {m : Mod σ} {s : S σ} (h : Inv m s) (v : Var) :
    (seen m s v).1 = v.flags.1 ∧ (seen m s v).2.2 = v.flags.2.2 ∧
      ((seen m s v).2.1 = true → v.flags.2.1 = true) := by
  unfold seen
  split
  · next hc =>
    obtain ⟨rfl, -⟩ := hc
    rcases (h .SelectedOutputHeadings).typ with ⟨-, e⟩ | ⟨-, e⟩
    · rw [e]; simp [Var.flags]
    · rw [e]; simp
  · exact ⟨rfl, rfl, id⟩

theorem input_sat {m : Mod σ} (hm : Lawful m) {s : S σ} (h : Inv m s) :
    ∃ s' l, getInputVarNames m s = .ok s' l ∧
      l = (Var.all.filter (fun v => v.flags.1)).map (fun v => v.name.toList) ∧ Inv m s' := by
  obtain ⟨s', l, e, h1, -, h2, -⟩ := (names_eq (u := False) (Q := fun _ => False) hm (fun f => f.1) Var.all [] s h).get
  refine ⟨s', l, e, ?_, h2⟩
  rw [h1]
  simp only [(seen_inv h _).1, List.nil_append]

theorem output_sat {m : Mod σ} (hm : Lawful m) {s : S σ} (h : Inv m s) :
    ∃ s' l, getOutputVarNames m s = .ok s' l ∧
      l = (Var.all.filter (fun v => (seen m s v).2.1)).map (fun v => v.name.toList) ++
        s.auto.map (fun p => p.2.name) ∧ Inv m s' ∧ ∀ w, seen m s' w = seen m s w := by
  obtain ⟨s', l, e, h1, h3, h2, h4⟩ := (names_eq (u := False) (Q := fun _ => False) hm (fun f => f.2.1) Var.all [] s h).get
  refine ⟨s', l ++ s'.auto.map (fun p => p.2.name), ?_, ?_, h2, h3⟩
  · unfold getOutputVarNames; rw [e]; rfl
  · rw [h1, h4]; simp

theorem pointable_sat {m : Mod σ} (hm : Lawful m) {s : S σ} (h : Inv m s) :
    ∃ s' l, getPointableVarNames m s = .ok s' l ∧
      l = (Var.all.filter (fun v => v.flags.2.2)).map (fun v => v.name.toList) ∧ Inv m s' := by
  obtain ⟨s', l, e, h1, -, h2, -⟩ := (names_eq (u := False) (Q := fun _ => False) hm (fun f => f.2.2) Var.all [] s h).get
  refine ⟨s', l, e, ?_, h2⟩
  rw [h1]
  simp only [(seen_inv h _).2.1, List.nil_append]

/-- C39: in every state, asking for a count and then for the names gives a list of that length (the
same list as without the count), for the input, the output and the pointable variables. -/
theorem counts_are_lengths {m : Mod σ} (hm : Lawful m) {s : S σ} (hr : Reach m s) :
    (∃ s1 n, getInputItemCount m s = .ok s1 n ∧ ∃ s2 s3 l, getInputVarNames m s1 = .ok s2 l ∧
      getInputVarNames m s = .ok s3 l ∧ l.length = n) ∧
    (∃ s1 n, getOutputItemCount m s = .ok s1 n ∧ ∃ s2 s3 l, getOutputVarNames m s1 = .ok s2 l ∧
      getOutputVarNames m s = .ok s3 l ∧ l.length = n) ∧
    (∃ s1 n, getPointableItemCount m s = .ok s1 n ∧ ∃ s2 s3 l,
      getPointableVarNames m s1 = .ok s2 l ∧ getPointableVarNames m s = .ok s3 l ∧
      l.length = n) := by
  have h := inv_of_reach hm hr
  refine ⟨?_, ?_, ?_⟩
  · obtain ⟨s1, n, e, h1, -, h2, -⟩ := (count_eq (u := False) (Q := fun _ => False) hm (fun f => f.1) Var.all 0 s h).get
    obtain ⟨s2, l, e2, h3, -⟩ := input_sat hm h2
    obtain ⟨s3, l3, e3, h4, -⟩ := input_sat hm h
    refine ⟨s1, n, e, s2, s3, l, e2, by rw [e3, h4, h3], ?_⟩
    rw [h3, h1]; simp [(seen_inv h _).1]
  · obtain ⟨s1, n, e, h1, hs, h2, ha⟩ := (count_eq (u := False) (Q := fun _ => False) hm (fun f => f.2.1) Var.all 0 s h).get
    obtain ⟨s2, l, e2, h3, -⟩ := output_sat hm h2
    obtain ⟨s3, l3, e3, h4, -⟩ := output_sat hm h
    simp only [hs, ha] at h3
    refine ⟨s1, n + s1.auto.length, by unfold getOutputItemCount; rw [e]; rfl, s2, s3, l, e2,
      by rw [e3, h4, h3], ?_⟩
    rw [h3, h1, ha]; simp
  · obtain ⟨s1, n, e, h1, -, h2, -⟩ := (count_eq (u := False) (Q := fun _ => False) hm (fun f => f.2.2) Var.all 0 s h).get
    obtain ⟨s2, l, e2, h3, -⟩ := pointable_sat hm h2
    obtain ⟨s3, l3, e3, h4, -⟩ := pointable_sat hm h
    refine ⟨s1, n, e, s2, s3, l, e2, by rw [e3, h4, h3], ?_⟩
    rw [h3, h1]; simp [(seen_inv h _).2.1]

/-! ### Names and what works for them (C40) -/

theorem names_differ (v w : Var) (h : lower v.name.toList = lower w.name.toList) : v = w := by
  have all : ∀ a ∈ Var.all, ∀ b ∈ Var.all, lower a.name.toList = lower b.name.toList → a = b := by
    decide +kernel
  exact all v (all_mem v) w (all_mem w) h

/-- C40: a name finds the variable with that name, whatever the case of its letters, and nothing
else. -/
theorem name_lookup (n : List Char) (v : Var) :
    getEnum n = some v ↔ lower n = lower v.name.toList := by
  unfold getEnum
  constructor
  · intro h
    have := List.find?_some h
    simp only [beq_iff_eq] at this
    exact this.symm
  · intro h
    cases hf : Var.all.reverse.find? (fun v => lower v.name.toList == lower n) with
    | none =>
      have := List.find?_eq_none.1 hf v (by simpa using all_mem v)
      simp [h] at this
    | some w =>
      have := List.find?_some hf
      simp only [beq_iff_eq] at this
      rw [names_differ w v (this.trans h)]

/-- C40: the lists of input and pointable variables. -/
theorem lists_of_names {m : Mod σ} (hm : Lawful m) {s : S σ} (hr : Reach m s) :
    (∃ s' l, getInputVarNames m s = .ok s' l ∧ l.Nodup ∧
      ∀ v : Var, v.name.toList ∈ l ↔ v.flags.1 = true) ∧
    (∃ s' l, getPointableVarNames m s = .ok s' l ∧ l.Nodup ∧
      ∀ v : Var, v.name.toList ∈ l ↔ v.flags.2.2 = true) ∧
    (∃ s' l, getOutputVarNames m s = .ok s' l ∧
      ∀ v : Var, v.flags.2.1 = true → (v = .SelectedOutputHeadings → 0 < m.nsel s.st) →
        v.name.toList ∈ l) := by
  have h := inv_of_reach hm hr
  have inj : ∀ v w : Var, v.name.toList = w.name.toList → v = w :=
    fun v w e => names_differ v w (by rw [e])
  have memp : ∀ (p : Var → Bool) (v : Var),
      v.name.toList ∈ (Var.all.filter p).map (fun v => v.name.toList) ↔ p v = true := by
    intro p v
    constructor
    · intro hh
      obtain ⟨w, hw, e⟩ := List.mem_map.1 hh
      rw [← inj w v e]; exact (List.mem_filter.1 hw).2
    · intro hp
      exact List.mem_map.2 ⟨v, List.mem_filter.2 ⟨all_mem v, hp⟩, rfl⟩
  have nd : ∀ p : Var → Bool, ((Var.all.filter p).map (fun v => v.name.toList)).Nodup :=
    fun p => List.Pairwise.map _ (fun v w hne e => hne (inj v w e)) (all_nodup.filter p)
  refine ⟨?_, ?_, ?_⟩
  · obtain ⟨s', l, e, hl, -⟩ := input_sat hm h
    exact ⟨s', l, e, by rw [hl]; exact nd _, fun v => by rw [hl]; exact memp (fun v => v.flags.1) v⟩
  · obtain ⟨s', l, e, hl, -⟩ := pointable_sat hm h
    exact ⟨s', l, e, by rw [hl]; exact nd _, fun v => by
      rw [hl]; exact memp (fun v => v.flags.2.2) v⟩
  · obtain ⟨s', l, e, hl, -⟩ := output_sat hm h
    refine ⟨s', l, e, fun v hv hh => ?_⟩
    rw [hl]
    refine List.mem_append_left _ ((memp _ v).2 ?_)
    unfold seen
    rw [if_neg (fun hc => by have := hh hc.1; omega)]
    exact hv

theorem sat_ok {α : Type} {P : S σ → α → Prop} {Q : S σ → Prop} {r : R σ α}
    (h : r.Sat False P Q) (hq : ∀ s, ¬ Q s) : ∃ s a, r = .ok s a ∧ P s a := by
  cases r with
  | ok s a => exact ⟨s, a, rfl, h⟩
  | threw s => exact (hq s h).elim
  | ub => exact h.elim

theorem sat_threw {α : Type} {P : S σ → α → Prop} {Q : S σ → Prop} {r : R σ α}
    (h : r.Sat False P Q) (hp : ∀ s a, ¬ P s a) : ∃ s, r = .threw s ∧ Q s := by
  cases r with
  | ok s a => exact (hp s a h).elim
  | threw s => exact ⟨s, rfl, h⟩
  | ub => exact h.elim

/-- C40: `SetValue` with a value of the variable's type works for the listed input variables: the
module is then as after its own setter. -/
theorem set_listed {m : Mod σ} (hm : Lawful m) {s : S σ} (hr : Reach m s) (hb : Ready s) {v : Var}
    (hv : v.flags.1 = true) :
    (∀ l, v.isVec = true → l.length = m.size s.st v →
      ∃ s', setValueVec m v l s = .ok s' () ∧ s'.st = m.setVec s.st v l) ∧
    (∀ x, v.scalar = true → ∃ s', setValueNum m v x s = .ok s' () ∧ s'.st = m.setNum s.st v x) ∧
    (∀ i, v.ctype = .int → ∃ s', setValueInt m v i s = .ok s' () ∧ s'.st = m.setInt s.st v i) ∧
    (∀ b, v.ctype = .bool → ∃ s', setValueBool m v b s = .ok s' () ∧ s'.st = m.setOn s.st b) ∧
    (∀ x, v.ctype = .string →
      ∃ s', setValueStr m v x s = .ok s' () ∧ s'.st = m.setStr s.st v x) := by
  have h := inv_of_reach hm hr
  have ex : ∀ f : Ex → Ex, v.grid = false → ∃ s', ((ensure m v s).bind fun s _ =>
      varFn m .setVar v { s with ex := f s.ex }) = .ok s' () ∧ ∃ e, s'.st = stored m v (f e) s.st := by
    intro f hg
    obtain ⟨s', a, e, ⟨x, hx⟩, -⟩ := sat_ok (setEx_sat (u := False) (v := v) h hm f (.inr hb)
      (.inr fun hc => by rw [hg] at hc; cases hc)) (fun s hs => by rw [hv] at hs; simp at hs)
    exact ⟨s', e, x, hx.st⟩
  refine ⟨fun l hvec hl => ?_, fun x hs => ?_, fun i hs => ?_, fun b hs => ?_, fun x hs => ?_⟩
  · have hg : v.grid = true := by
      cases v <;> simp [Var.flags, Var.isVec, Var.ctype, Var.scalar, Var.grid] at hv hvec ⊢
    obtain ⟨s', a, e, hh⟩ := sat_ok (setVec_sat (u := False) (v := v) (l := l) h hm (.inr hb))
      (fun s hs => by rw [hv] at hs; simp at hs)
    refine ⟨s', e, ?_⟩
    rcases hh with ⟨⟨x, hx⟩, -⟩ | ⟨-, hc⟩
    · rw [hx.st]
      cases v <;> simp [Var.isVec, Var.ctype, Var.scalar] at hvec <;>
        simp [stored, Var.ctype, Var.scalar]
    · exact absurd hl (hc hg)
  · obtain ⟨s', e, x', hx⟩ := ex (fun e => { e with dvar := x })
      (by cases v <;> simp [Var.scalar, Var.grid, Var.isVec, Var.ctype] at hs ⊢)
    refine ⟨s', e, ?_⟩
    rw [hx]
    cases v <;> simp [Var.scalar] at hs <;> simp [stored, Var.ctype, Var.scalar]
  · obtain ⟨s', e, x', hx⟩ := ex (fun e => { e with ivar := i })
      (by cases v <;> simp [Var.scalar, Var.grid, Var.isVec, Var.ctype] at hs ⊢)
    exact ⟨s', e, by rw [hx, stored, hs]⟩
  · obtain ⟨s', e, x', hx⟩ := ex (fun e => { e with bvar := b, ctype := some .bool })
      (by cases v <;> simp [Var.scalar, Var.grid, Var.isVec, Var.ctype] at hs ⊢)
    exact ⟨s', e, by rw [hx, stored, hs]⟩
  · obtain ⟨s', e, x', hx⟩ := ex (fun e => { e with str := x })
      (by cases v <;> simp [Var.scalar, Var.grid, Var.isVec, Var.ctype] at hs ⊢)
    exact ⟨s', e, by rw [hx, stored, hs]⟩

theorem not_allowed_set {v : Var} (hv : v.flags.1 = false) : v.allows .setVar = false := by
  cases v <;> simp [Var.allows, Var.flags] at hv ⊢

/-- C40: `SetValue` for any other variable throws and changes nothing in the module, whatever
overload is used and whatever was set up before (a vector of another length is not even
considered). -/
theorem set_unlisted {m : Mod σ} (hm : Lawful m) {s : S σ} (hr : Reach m s) {v : Var}
    (hv : v.flags.1 = false) :
    (∀ x, ∃ s', setValueNum m v x s = .threw s' ∧ s'.st = s.st) ∧
    (∀ i, ∃ s', setValueInt m v i s = .threw s' ∧ s'.st = s.st) ∧
    (∀ b, ∃ s', setValueBool m v b s = .threw s' ∧ s'.st = s.st) ∧
    (∀ x, ∃ s', setValueStr m v x s = .threw s' ∧ s'.st = s.st) ∧
    (∀ l, v.grid = true → l.length = m.size s.st v →
      ∃ s', setValueVec m v l s = .threw s' ∧ s'.st = s.st) ∧
    (∀ l s', setValueVec m v l s = .ok s' () → s'.st = s.st) := by
  have h := inv_of_reach hm hr
  have fn : ∀ s1 : S σ, Inv m s1 → ∃ s', varFn m .setVar v s1 = .threw s' ∧ s'.st = s1.st := by
    intro s1 h1
    have ha := not_allowed_set hv
    unfold varFn setBody
    rw [if_pos rfl, if_pos ha]
    exact ⟨_, rfl, (begin_post hm v h1).st⟩
  obtain ⟨s1, a, e1, h1, h2, -⟩ := (ensure_sat (u := False) (v := v) (Q := fun _ => False) h hm).get
  have ex : ∀ f : Ex → Ex, ∃ s', ((ensure m v s).bind fun s _ =>
      varFn m .setVar v { s with ex := f s.ex }) = .threw s' ∧ s'.st = s.st := by
    intro f
    obtain ⟨s', e, hs⟩ := fn { s1 with ex := f s1.ex } (h1.inv.congr rfl rfl rfl rfl)
    exact ⟨s', by rw [e1]; exact e, hs.trans h1.st⟩
  refine ⟨fun x => ex (fun e => { e with dvar := x }), fun x => ex (fun e => { e with ivar := x }),
    fun x => ex (fun e => { e with bvar := x, ctype := some .bool }),
    fun x => ex (fun e => { e with str := x }), fun l hg hl => ?_, fun l s' hs => ?_⟩
  · have hd : (s1.va v).dim = l.length := by
      have hv' : v.isVec = true ∧ v ≠ .SelectedOutput := by simpa [Var.grid] using hg
      have hs : v.stays = true := by
        cases v <;> simp [Var.isVec, Var.ctype, Var.scalar, Var.stays] at hv' ⊢
      rw [((h1.inv v).shape hv'.1 hv'.2 (h2 hs)).2.1, h1.st, hl]
    obtain ⟨s', e, hs⟩ := fn { s1 with ex := { s1.ex with data := l } }
      (h1.inv.congr rfl rfl rfl rfl)
    refine ⟨s', ?_, hs.trans h1.st⟩
    unfold setValueVec
    rw [e1, R.bind_ok, if_neg (by simpa using hd)]
    exact e
  · unfold setValueVec at hs
    rw [e1, R.bind_ok] at hs
    split at hs
    · simp only [R.ok.injEq, and_true] at hs
      rw [← hs]; exact h1.st
    · obtain ⟨s2, e, -⟩ := fn { s1 with ex := { s1.ex with data := l } }
        (h1.inv.congr rfl rfl rfl rfl)
      rw [e] at hs; cases hs

/-- C40, C42: `GetValue` into a C++ variable of the right type gives the module's own value for
every variable with a getter, whatever the size of the grid. -/
theorem get_listed {m : Mod σ} (hm : Lawful m) {s : S σ} (hr : Reach m s) {v : Var}
    (hv : v.flags.2.1 = true) :
    (v.isVec = true → ∃ s', getValueVec m v s = .ok s' (m.vec s.st v)) ∧
    (v.scalar = true → ∃ s', getValueNum m v s = .ok s' (m.num s.st v)) ∧
    (v.ctype = .int → ∃ s', getValueInt m v s = .ok s' (m.int s.st v)) ∧
    (v.ctype = .bool → ∃ s', getValueBool m v s = .ok s' (m.on s.st)) ∧
    (v.ctype = .string → ∃ s', getValueStr m v s = .ok s' (m.str s.st v)) ∧
    (v.ctype = .strings → ∃ s', getValueStrs m v s = .ok s' (m.strs s.st v)) := by
  obtain ⟨s', e, hval⟩ := get_value (inv_of_reach hm hr) hm hv
  have fin : ∀ {α : Type} (f : Ex → α),
      ((ensure m v s).bind fun s _ => (varFn m .getVar v s).bind fun s _ => R.ok s (f s.ex)) =
        .ok s' (f s'.ex) := by
    intro α f
    rw [← R.bind_assoc, e]; rfl
  unfold readEx current at hval
  refine ⟨fun hh => ⟨s', ?_⟩, fun hh => ⟨s', ?_⟩, fun hh => ⟨s', ?_⟩, fun hh => ⟨s', ?_⟩,
    fun hh => ⟨s', ?_⟩, fun hh => ⟨s', ?_⟩⟩
  · have hc : v.ctype = .double ∧ v.scalar = false := by
      cases v <;> simp [Var.isVec, Var.ctype, Var.scalar] at hh ⊢
    simp [hc.1, hc.2] at hval
    rw [← hval]; exact fin (·.data)
  · have hc : v.ctype = .double := by cases v <;> simp [Var.ctype, Var.scalar] at hh ⊢
    simp [hc, hh] at hval
    rw [← hval]; exact fin (·.dvar)
  · simp [hh] at hval; rw [← hval]; exact fin (·.ivar)
  · simp [hh] at hval; rw [← hval]; exact fin (·.bvar)
  · simp [hh] at hval; rw [← hval]; exact fin (·.str)
  · simp [hh] at hval; rw [← hval]; exact fin (·.strs)

/-- C40: `GetValue` throws for the variables without a getter. -/
theorem get_unlisted {m : Mod σ} (hm : Lawful m) {s : S σ} (hr : Reach m s) {v : Var}
    (hv : v.flags.2.1 = false) :
    (∃ s', getValueVec m v s = .threw s') ∧ (∃ s', getValueNum m v s = .threw s') ∧
    (∃ s', getValueInt m v s = .threw s') ∧ (∃ s', getValueRaw m v s = .threw s') := by
  obtain ⟨s', e, -⟩ := get_refuse (inv_of_reach hm hr) hm hv
  have fin : ∀ {α : Type} (f : S σ → Unit → R σ α),
      ((ensure m v s).bind fun s _ => (varFn m .getVar v s).bind f) = .threw s' := by
    intro α f
    rw [← R.bind_assoc, e]; rfl
  exact ⟨⟨s', fin _⟩, ⟨s', fin _⟩, ⟨s', fin _⟩, ⟨s', fin _⟩⟩

/-- C40: `GetValuePtr` throws unless the variable is listed as pointable (or is `Components`, see
`components_pointer_is_null`). -/
theorem ptr_unlisted {m : Mod σ} (hm : Lawful m) {s : S σ} (hr : Reach m s) {v : Var}
    (hv : v.flags.2.2 = false) (hc : v ≠ .Components) : ∃ s', getValuePtr m v s = .threw s' := by
  obtain ⟨s', e, -⟩ := sat_threw (getPtr_sat (u := False) (v := v) (inv_of_reach hm hr) hm)
    (fun s a hs => by
      have := hs.2.2
      rw [getPtr_allows, hv] at this
      simp [hc] at this)
  exact ⟨s', e⟩

/-- What a pointer of the invariant shows. -/
theorem deref_cur {m : Mod σ} {s : S σ} (h : Inv m s) {v : Var} {q : Ptr}
    (hq : (s.va v).void = some q) (hc : Cur m s v) : deref s v q = some (current m s.st v) := by
  obtain ⟨h1, h2, h3, h4, h5⟩ := (h v).point q hq
  subst h5
  unfold Cur at hc
  by_cases hv : v.isVec = true
  · have hct : v.ctype = .double ∧ v.scalar = false := by
      cases v <;> simp [Var.isVec, Var.ctype, Var.scalar] at hv ⊢
    simp [hct.1, hct.2] at hc
    simp [hv, deref, current, hct.1, hct.2, hc]
  · rw [if_neg hv]
    cases v <;> simp [Var.flags] at h4 <;> simp [Var.isVec, Var.ctype, Var.scalar] at hv <;>
      simp [Var.ctype, Var.scalar] at hc <;> simp [deref, current, Var.ctype, Var.scalar, hc]

/-! ### Pointers (C43) -/

/-- Calls made after `s`. -/
inductive Later (m : Mod σ) : S σ → S σ → Prop
  | refl (s : S σ) : Later m s s
  | step {s s1 s2 : S σ} (op : Op σ) : Later m s s1 → op.Mild m → op.NoGrowth m s1 →
      Leads m s1 op s2 → Later m s s2

theorem Later.reach {m : Mod σ} {s s' : S σ} (h : Reach m s) (hl : Later m s s') : Reach m s' := by
  induction hl with
  | refl => exact h
  | step op _ hk hg hs ih => exact .step op ih hk hg hs

theorem Later.keep {m : Mod σ} (hm : Lawful m) {s s' : S σ} (h : Reach m s) (hl : Later m s s')
    {v : Var} {q : Ptr} (hq : (s.va v).void = some q) : (s'.va v).void = some q := by
  induction hl with
  | refl => exact hq
  | step op hl hk hg hs ih =>
    have := exec_sat (u := True) hm (inv_of_reach hm (hl.reach h)) op hk hg (.inl trivial)
      (.inl trivial)
    rcases hs with hs | hs <;> rw [hs] at this <;> exact this.2.2 v q ih

theorem const_cur {m : Mod σ} {s : S σ} (h : Inv m s) {v : Var} (hi : (s.va v).init = true)
    (hv : v.flags.2.2 = true) (hu : v.updates = false) : Cur m s v := by
  have h7 := (h v).const
  have h8 := (h v).gfw
  cases v <;> simp [Var.flags] at hv <;> simp [Var.updates] at hu
  · simpa [Cur, Var.ctype] using h7 (.inl rfl) hi
  · simpa [Cur, Var.ctype, Var.scalar] using h8 rfl hi
  · simpa [Cur, Var.ctype] using h7 (.inr rfl) hi

/-- C43 (as far as it holds): a pointer obtained at any time, followed by any calls that come back or
throw (none of them a `FindComponents` that finds more components after pointers were given out),
shows the current value after every `Update` that returns - and `Update` returns unless `RunCells`
throws. -/
theorem pointers_follow_updates_partial {m : Mod σ} (hm : Lawful m) {s s1 s2 : S σ} {v : Var}
    {q : Ptr} (hr : Reach m s) (hp : getValuePtr m v s = .ok s1 (some q)) (hl : Later m s1 s2)
    (run : Run σ) (hk : ∀ st, Keeps m st (run.f st)) (ht : run.threw = false) :
    ∃ s3, update m run s2 = .ok s3 () ∧ deref s3 v q = some (current m s3.st v) := by
  have hr1 : Reach m s1 := by
    refine .step (.getPtr v) hr trivial trivial (.inl ?_)
    show (getValuePtr m v s).drop = _
    rw [hp]; rfl
  have hq1 : (s1.va v).void = some q := by
    have := getPtr_sat (u := False) (v := v) (inv_of_reach hm hr) hm
    rw [hp] at this
    exact this.2.1.symm
  have h2 := inv_of_reach hm (hl.reach hr1)
  have hq2 := hl.keep hm hr1 hq1
  obtain ⟨s3, a, e, hpost, -, hcur⟩ := sat_ok (update_sat (u := False) hm h2 run hk)
    (fun s hs => by rw [ht] at hs; simp at hs)
  have hq3 := hpost.keep v q hq2
  refine ⟨s3, e, deref_cur hpost.inv hq3 ?_⟩
  obtain ⟨p1, -, p3, p4, -⟩ := (hpost.inv v).point q hq3
  cases hu : v.updates with
  | true => exact hcur v (p3 hu)
  | false => exact const_cur hpost.inv p1 p4 hu

/-- C43: the same after `UpdateUntil`. -/
theorem pointers_follow_until_partial {m : Mod σ} (hm : Lawful m) {s s1 s2 : S σ} {v : Var}
    {q : Ptr} (hr : Reach m s) (hp : getValuePtr m v s = .ok s1 (some q)) (hl : Later m s1 s2)
    (run : Run σ) (hk : ∀ st, Keeps m st (run.f st)) (ht : run.threw = false) {t : ℚ}
    (hle : m.num s2.st .Time ≤ t) :
    ∃ s3, updateUntil m run t s2 = .ok s3 () ∧ deref s3 v q = some (current m s3.st v) := by
  have hr1 : Reach m s1 := by
    refine .step (.getPtr v) hr trivial trivial (.inl ?_)
    show (getValuePtr m v s).drop = _
    rw [hp]; rfl
  have hq1 : (s1.va v).void = some q := by
    have := getPtr_sat (u := False) (v := v) (inv_of_reach hm hr) hm
    rw [hp] at this
    exact this.2.1.symm
  have h2 := inv_of_reach hm (hl.reach hr1)
  have hq2 := hl.keep hm hr1 hq1
  obtain ⟨s3, a, e, hh⟩ := sat_ok (updateUntil_sat (u := False) hm h2 run t hk)
    (fun s hs => by rw [ht] at hs; simp at hs)
  rcases hh with ⟨-, hpost, -, hcur⟩ | ⟨hlt, -⟩
  · have hq3 := hpost.keep v q hq2
    refine ⟨s3, e, deref_cur hpost.inv hq3 ?_⟩
    obtain ⟨p1, -, p3, p4, -⟩ := (hpost.inv v).point q hq3
    cases hu : v.updates with
    | true => exact hcur v (p3 hu)
    | false => exact const_cur hpost.inv p1 p4 hu
  · exact absurd hle (not_le.2 hlt)

end Verif.BMI
