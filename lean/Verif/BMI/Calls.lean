import Verif.BMI.Sets

/-!
# What every call preserves
-/

namespace Verif.BMI

variable {σ : Type}

/-- Whether the call can be relied on not to leave its buffers: the value has the C++ type of the
variable and is long enough; through `void*` nothing is read or written that has no fixed item size,
and no array of a single item is written. -/
def Op.Safe (m : Mod σ) (s : S σ) : Op σ → Prop
  | .getRaw v => v ≠ .ErrorString
  | .setRaw v x => match v.ctype, x with
    | .int, .int _ => v ≠ .SelectedOutputRowCount
    | .bool, .bool _ => True
    | .double, .vec l => if v.scalar = true then l ≠ []
        else v ≠ .SelectedOutput ∧ m.size s.st v ≠ 1 ∧ m.size s.st v ≤ l.length
    | _, _ => False
  | op => op.Typed

theorem varFn_plain (m : Mod σ) {t : Task} (v : Var) (s : S σ) (h : t ≠ .setVar) :
    varFn m t v s = plain m t v s := by
  unfold varFn; rw [if_neg h]

theorem setup_ex_str (m : Mod σ) (s : S σ) : (setup m .FilePrefix s).ex = s.ex := by
  simp [setup]

theorem set_stays {v : Var} (h : v.flags.1 = true) : v.stays = true ∨ v = .FilePrefix := by
  cases v <;> simp [Var.flags, Var.stays] at h ⊢

/-- `SetVar`. -/
theorem varFn_set_sat {m : Mod σ} {u : Prop} {v : Var} {s : S σ}
    (h : Inv m s) (hm : Lawful m) (hi : v.stays = true → (s.va v).init = true)
    (hr : u ∨ Ready s) (hd : u ∨ (v.grid = true → s.ex.data.length ≤ m.size s.st v)) :
    (varFn m .setVar v s).Sat u (fun s' _ => Post m (stored m v s.ex s.st) s s' ∧ v.flags.1 = true)
      (fun s' => Post m s.st s s' ∧ v.flags.1 = false) := by
  have h1 := begin_post hm v h
  obtain ⟨e1, e2, e3, e4, e5, e6⟩ := enter_frame v s
  have hcur : v ≠ .DensityUser → (setup m v (enter v s)).cur = some v := by
    intro hv
    rw [(setup_frame m v _).2.2.2.1]
    unfold enter; rw [if_neg hv]
  by_cases hset : v.flags.1 = true
  swap
  · -- refused at once
    have ha : v.allows .setVar = false := by
      cases v <;> simp [Var.allows, Var.flags] at hset ⊢
    unfold varFn setBody
    rw [if_pos rfl, if_pos ha]
    exact ⟨h1, by simpa using hset⟩
  have hex : (setup m v (enter v s)).ex = s.ex := by
    rcases set_stays hset with hs | rfl
    · rw [setup_same m v _ (by rw [e2]; exact hi hs) hs, e5]
    · rw [setup_ex_str, e5]
  have hb := setBody_sat (u := u) (v := v) h1.inv hm (fun hs => setup_init m v _ hs) hcur
    (hr.imp_right h1.ready) (by rw [hex, h1.st]; exact hd)
  rw [hex, h1.st] at hb
  unfold varFn
  rw [if_pos rfl]
  cases e : setBody m v (setup m v (enter v s)) with
  | ok s2 a =>
    rw [e] at hb
    have h2 : Post m _ s s2 := h1.trans hb.1
    exact ⟨h2.trans (h2.st ▸ finish_post v h2.inv), hb.2⟩
  | threw s2 =>
    rw [e] at hb
    exact ⟨hb.1 ▸ h1, hb.2⟩
  | ub => rw [e] at hb; exact hb

theorem allows_info (v : Var) : v.allows .info = true := by cases v <;> rfl
theorem allows_update {v : Var} (h : v.flags.2.2 = true ∧ v.updates = true) :
    v.allows .update = true := by
  cases v <;> simp [Var.flags, Var.updates] at h <;> rfl
theorem allows_getVar (v : Var) : v.allows .getVar = v.flags.2.1 := by cases v <;> rfl

/-- `Info`. -/
theorem info_sat {m : Mod σ} {u : Prop} {v : Var} {s : S σ} {Q : S σ → Prop} (h : Inv m s)
    (hm : Lawful m) :
    (varFn m .info v s).Sat u (fun s' _ => Post m s.st s s' ∧
      (v.stays = true → (s'.va v).init = true) ∧ s'.auto = s.auto) Q := by
  rw [varFn_plain _ _ _ (by decide)]
  have h1 := begin_post hm v h
  unfold plain plainBody
  rw [if_neg (by rw [allows_info]; decide)]
  refine ⟨h1.trans (h1.st ▸ finish_post v h1.inv), fun hs => setup_init m v _ hs, ?_⟩
  show (setup m v (enter v s)).auto = _
  rw [(setup_frame m v _).2.2.2.2.1, (enter_frame v s).2.2.2.2.2]

theorem ensure_sat {m : Mod σ} {u : Prop} {v : Var} {s : S σ} {Q : S σ → Prop} (h : Inv m s)
    (hm : Lawful m) :
    (ensure m v s).Sat u (fun s' _ => Post m s.st s s' ∧
      (v.stays = true → (s'.va v).init = true) ∧ s'.auto = s.auto) Q := by
  unfold ensure
  split
  · next hi => exact ⟨Post.refl h, fun _ => hi, rfl⟩
  · exact info_sat h hm

/-- The beginning of every `GetValue`. -/
theorem get_sat {m : Mod σ} {u : Prop} {v : Var} {s : S σ} (h : Inv m s) (hm : Lawful m) :
    ((ensure m v s).bind fun s _ => varFn m .getVar v s).Sat u
      (fun s' _ => Post m s.st s s' ∧ v.flags.2.1 = true)
      (fun s' => Post m s.st s s' ∧ v.flags.2.1 = false) := by
  refine R.Sat.bind (ensure_sat h hm) fun s1 _ h1 => ?_
  rw [varFn_plain _ _ _ (by decide)]
  refine (plain_sat (t := .getVar) h1.1.inv hm (.inr (.inl rfl)) (by intro e; cases e)).mono id (fun s2 _ h2 => ?_) (fun s2 h2 => ?_)
  · exact ⟨h1.1.trans (h1.1.st ▸ h2.1), by rw [← allows_getVar]; exact h2.2⟩
  · exact ⟨h1.1.trans (h1.1.st ▸ h2.1), by rw [← allows_getVar]; exact h2.2⟩

theorem R.bind_assoc {α β γ : Type} (r : R σ α) (f : S σ → α → R σ β) (g : S σ → β → R σ γ) :
    (r.bind f).bind g = r.bind fun s a => (f s a).bind g := by
  cases r <;> rfl

/-- A `GetValue` into a C++ variable. -/
theorem getEx_sat {α : Type} {m : Mod σ} {u : Prop} {v : Var} {s : S σ} (h : Inv m s)
    (hm : Lawful m) (f : Ex → α) :
    ((ensure m v s).bind fun s _ => (varFn m .getVar v s).bind fun s _ => R.ok s (f s.ex)).Sat u
      (fun s' _ => Post m s.st s s' ∧ v.flags.2.1 = true)
      (fun s' => Post m s.st s s' ∧ v.flags.2.1 = false) := by
  rw [← R.bind_assoc]
  exact R.Sat.bind (get_sat h hm) fun s1 _ h1 => h1

theorem drop_sat {α : Type} {u : Prop} {P : S σ → α → Prop} {P' : S σ → Unit → Prop}
    {Q : S σ → Prop} {r : R σ α}
    (h : r.Sat u P Q) (h' : ∀ s a, P s a → P' s ()) : r.drop.Sat u P' Q :=
  R.Sat.bind h h'

/-- A failing read through `void*` only concerns the error string or a value that cannot be read. -/
theorem copyOut_none {e : Ex} {k : Nat} (h : copyOut e k = none) :
    (e.ctype = some .double ∧ 1 < e.dim ∧ e.data.length < e.dim) ∨
      (e.ctype = some .string ∧ e.dim ≤ 1 ∧ e.str.length + 1 < e.nbytes) := by
  unfold copyOut at h
  split at h
  · split at h <;> cases h
  · split at h <;> cases h
  · next hc =>
    split at h
    · cases h
    · split at h
      · split at h
        · cases h
        · exact .inl ⟨hc, by assumption, by omega⟩
      · cases h
  · cases h
  · next hc =>
    split at h
    · split at h
      · cases h
      · exact .inr ⟨hc, by assumption, by omega⟩
    · cases h
  · cases h

/-- The bookkeeping of a variable and the exchange object after a successful read. -/
theorem get_shape {m : Mod σ} {v : Var} {s s1 s2 : S σ} (h : Inv m s) (hm : Lawful m)
    (e1 : ensure m v s = .ok s1 ()) (e2 : varFn m .getVar v s1 = .ok s2 ())
    (hv : v ≠ .ErrorString) : ∀ k, copyOut s2.ex k ≠ none := by
  intro k hk
  have h1 := ensure_sat (u := False) (v := v) (Q := fun _ => False) h hm
  rw [e1] at h1
  rw [varFn_plain _ _ _ (by decide)] at e2
  have h2 := begin_post hm v h1.1.inv
  have hi : v.stays = true → ((setup m v (enter v s1)).va v).init = true :=
    fun hs => setup_init m v _ hs
  -- the state before `finish`
  obtain ⟨s3, e3, hex, hva⟩ : ∃ s3 : S σ, finish v s3 = s2 ∧
      (s3.ex = (fetched m v (setup m v (enter v s1))).ex) ∧
      s3.va = (fetched m v (setup m v (enter v s1))).va := by
    unfold plain plainBody at e2
    by_cases ha : v.allows .getVar = false
    · rw [if_pos ha] at e2; cases e2
    · rw [if_neg ha] at e2
      have hf := fetch_ok hm h2.inv hi
      cases v <;> simp only [hf, R.bind_ok, R.ok.injEq, and_true] at e2 <;>
        exact ⟨_, e2, rfl, rfl⟩
  have hdim : s2.ex.dim = (s3.va v).dim ∧ s2.ex.nbytes = (s3.va v).nbytes ∧
      s2.ex.ctype = (s3.va v).ctype ∧ s2.ex.data = s3.ex.data ∧ s2.ex.str = s3.ex.str := by
    subst e3; exact ⟨rfl, rfl, rfl, rfl, rfl⟩
  rw [hva, hex] at hdim
  have hct : ((setup m v (enter v s1)).va v).init = true →
      s2.ex.ctype = some v.ctype := by
    intro hh
    rw [hdim.2.2.1]
    have := ((fetched_inv hm h2.inv hi) v).info (by rw [(fetched_frame m v _).2.2.2.2.2.2.1]; exact hh)
    exact this.1
  by_cases hg : v.grid = true
  · have hv' : v.isVec = true ∧ v ≠ .SelectedOutput := by simpa [Var.grid] using hg
    have hs : v.stays = true := by
      cases v <;> simp [Var.isVec, Var.ctype, Var.scalar, Var.stays] at hv' ⊢
    have hsh := (h2.inv v).shape hv'.1 hv'.2 (hi hs)
    have hl := hm.len (setup m v (enter v s1)).st v hv'.1
    have hd1 : s2.ex.dim = m.size (setup m v (enter v s1)).st v := by
      rw [hdim.1, fetched, if_pos hg, upd_same]
      exact hsh.2.1
    have hd2 : s2.ex.data = m.vec (setup m v (enter v s1)).st v := by
      rw [hdim.2.2.2.1, fetched, if_pos hg]
    have hc : s2.ex.ctype = some .double := by
      rw [hct (hi hs)]
      have : v.ctype = .double := by
        cases v <;> simp [Var.isVec, Var.ctype, Var.scalar] at hv' ⊢
      rw [this]
    rcases copyOut_none hk with hh | hh
    · rw [hd1, hd2, hl] at hh; omega
    · rw [hc] at hh; simp at hh
  · by_cases hs : v.stays = true
    · have hone := (h2.inv v).one
      have hc := hct (hi hs)
      have hdd : v.ctype = .double → s2.ex.dim = 1 := by
        intro hd
        have hsc : v.scalar = true := by
          cases v <;> simp [Var.grid, Var.isVec, Var.ctype, Var.scalar, Var.stays] at hg hd hs ⊢
        have := (((fetched_inv hm h2.inv hi) v).one (.inr (.inr hsc))
          (by rw [(fetched_frame m v _).2.2.2.2.2.2.1]; exact hi hs)).1
        rw [hdim.1]; exact this
      rcases copyOut_none hk with hh | hh
      · rw [hc] at hh
        have := hdd (by simpa using hh.1)
        omega
      · rw [hc] at hh
        have : v.ctype = .string := by simpa using hh.1
        cases v <;> simp [Var.ctype, Var.stays] at this hs hv
    · have hl := (h1.1.inv v).live (by simpa using hs)
      have hl' : ((enter v s1).va v).init = false := by
        rw [(enter_frame v s1).2.1]; exact hl
      have hty := ((fetched_inv hm h2.inv hi) v).typ
      have hty' : s2.ex.ctype = none ∨ s2.ex.ctype = some v.ctype := by
        rw [hdim.2.2.1]; exact hty.imp And.left And.left
      have hvt : (s2.ex.ctype = some .double → v = .SelectedOutput) ∧
          (s2.ex.ctype = some .string → v = .FilePrefix) := by
        constructor <;> intro e <;> rw [e] at hty' <;> simp at hty' <;>
          cases v <;> simp [Var.stays, Var.ctype] at hs hty' ⊢
      rcases copyOut_none hk with hh | hh
      · have := hvt.1 hh.1
        subst this
        rw [hdim.1, hdim.2.2.1, hdim.2.2.2.1] at hh
        have hlen := hm.len (enter .SelectedOutput s1).st .SelectedOutput rfl
        simp [fetched, Var.grid, Var.isVec, Var.ctype, Var.scalar, fetch, setup, hl',
            Variant.basic] at hh
        split at hh <;> omega
      · have := hvt.2 hh.1
        subst this
        rw [hdim.1, hdim.2.1, hdim.2.2.1, hdim.2.2.2.2] at hh
        simp [fetched, Var.grid, Var.isVec, Var.ctype, Var.scalar, fetch, setup,
            Variant.basic] at hh

end Verif.BMI
