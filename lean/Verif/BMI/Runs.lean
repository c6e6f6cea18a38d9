import Verif.BMI.Exec
import Mathlib.Tactic.Linarith

/-!
# Time steps, `FindComponents`, name queries, and whole histories
-/

namespace Verif.BMI

variable {σ : Type}

/-- The storage a pointer to `v` points to holds the current value. -/
def Cur (m : Mod σ) (s : S σ) (v : Var) : Prop :=
  match v.ctype with
  | .int => (s.va v).ivar = m.int s.st v
  | .bool => (s.va v).bvar = m.on s.st
  | .double => if v.scalar = true then (s.va v).dvar = m.num s.st v
      else (s.va v).buf.data = m.vec s.st v
  | _ => True

theorem fetched_cur (m : Mod σ) (v : Var) (s : S σ) (hs : v.flags.2.2 = true) :
    Cur m (fetched m v s) v := by
  by_cases hg : v.grid = true
  · have hct : v.ctype = .double ∧ v.scalar = false := by
      cases v <;> simp [Var.grid, Var.isVec, Var.ctype, Var.scalar] at hg ⊢
    simp [Cur, hct.1, hct.2, fetched, hg]
  · cases v <;> simp [Var.flags] at hs <;>
      simp [Var.grid, Var.isVec, Var.ctype, Var.scalar] at hg <;>
      simp [Cur, fetched, Var.grid, Var.isVec, Var.ctype, Var.scalar, fetch]

/-- Updating one variable. -/
theorem update_one {m : Mod σ} {u : Prop} {Q : S σ → Prop} {v : Var} {s : S σ} (h : Inv m s)
    (hm : Lawful m) (hv : s.uset v = true) :
    (varFn m .update v s).Sat u (fun s' _ => Post m s.st s s' ∧ s'.uset = s.uset ∧
      s'.pset = s.pset ∧ Cur m s' v ∧ (∀ w, w ≠ v → s'.va w = s.va w) ∧
      (∀ w, (s'.va w).void = (s.va w).void)) Q := by
  obtain ⟨hi, hp, hup⟩ := (h v).uses hv
  rw [varFn_plain _ _ _ (by decide)]
  have h1 := begin_post hm v h
  obtain ⟨a1, a2, a3, a4, a5, -⟩ := enter_frame v s
  obtain ⟨b1, b2, b3, -, -, b6⟩ := setup_frame m v (enter v s)
  have hf := fetch_ok hm h1.inv (fun _ => h1.mono v hi)
  obtain ⟨c1, c2, c3, -, -, c6, c7, c8⟩ := fetched_frame m v (setup m v (enter v s))
  have e : plain m .update v s = .ok (finish v (fetched m v (setup m v (enter v s)))) () := by
    unfold plain plainBody
    rw [if_neg (by rw [allows_update ⟨hp, hup⟩]; decide)]
    cases v <;> simp only [hf, R.bind_ok]
  rw [e]
  have hpost : Post m s.st s (fetched m v (setup m v (enter v s))) := by
    refine ⟨fetched_inv hm h1.inv (fun _ => h1.mono v hi), by rw [c1]; exact h1.st, fun w hw => ?_,
      fun w q hw => ?_⟩ <;> by_cases hw' : w = v
    · subst hw'; rw [c7]; exact h1.mono w hw
    · rw [c6 w hw']; exact h1.mono w hw
    · subst hw'; rw [c8]; exact h1.keep w q hw
    · rw [c6 w hw']; exact h1.keep w q hw
  refine ⟨hpost.trans (hpost.st ▸ finish_post v hpost.inv), ?_, ?_, fetched_cur m v _ hp, ?_, ?_⟩
  · show (fetched m v _).uset = _; rw [c3, b3, a4]
  · show (fetched m v _).pset = _; rw [c2, b2, a3]
  · intro w hw
    show (fetched m v _).va w = _
    rw [c6 w hw, b6 w hw, a2]
  · intro w
    show ((fetched m v _).va w).void = _
    by_cases hw : w = v
    · subst hw; rw [c8, setup_void, a2]
    · rw [c6 w hw, b6 w hw, a2]

theorem Cur.frame {m : Mod σ} {s s' : S σ} {v : Var} (h : Cur m s v) (h1 : s'.st = s.st)
    (h2 : s'.va v = s.va v) : Cur m s' v := by
  unfold Cur at h ⊢
  rw [h1, h2]; exact h

theorem loop_update {m : Mod σ} {u : Prop} {Q : S σ → Prop} (hm : Lawful m) (s0 : S σ) :
    ∀ (vs : List Var) (s : S σ), Inv m s → (∀ v ∈ vs, s.uset v = true) →
      (loop (varFn m .update) vs s).Sat u (fun s' _ => Post m s.st s s' ∧ s'.uset = s.uset ∧
        s'.pset = s.pset ∧ (∀ v, v ∈ vs ∨ Cur m s v → Cur m s' v) ∧
        (∀ w, (s'.va w).void = (s.va w).void)) Q
  | [], s, h, _ => ⟨Post.refl h, rfl, rfl, fun v hv => by simpa using hv, fun _ => rfl⟩
  | v :: vs, s, h, hv => by
    rw [loop]
    refine R.Sat.bind (update_one h hm (hv v (by simp))) fun s1 _ ⟨h1, h2, h3, h4, h5, h6⟩ => ?_
    refine (loop_update hm s0 vs s1 h1.inv fun w hw => by rw [h2]; exact hv w (by simp [hw])).mono id
      (fun s2 _ ⟨g1, g2, g3, g4, g5⟩ => ?_) fun _ h => h
    refine ⟨h1.trans (h1.st ▸ g1), g2.trans h2, g3.trans h3, fun w hw => g4 w ?_, fun w => by
      rw [g5, h6]⟩
    by_cases e : w = v
    · subst e; exact .inr h4
    · rcases hw with hw | hw
      · simp only [List.mem_cons, e, false_or] at hw; exact .inl hw
      · exact .inr (hw.frame h1.st (h5 w e))

theorem all_mem (v : Var) : v ∈ Var.all := by cases v <;> decide

theorem updateVariables_sat {m : Mod σ} {u : Prop} {Q : S σ → Prop} (hm : Lawful m) {s : S σ}
    (h : Inv m s) : (updateVariables m s).Sat u (fun s' _ => Post m s.st s s' ∧
      ∀ v, s'.uset v = true → Cur m s' v) Q := by
  unfold updateVariables
  refine (loop_update hm s _ s h fun v hv => by simpa using (List.mem_filter.1 hv).2).mono id
    (fun s' _ ⟨h1, h2, _, h4, _⟩ => ⟨h1, fun v hv => h4 v (.inl ?_)⟩) fun _ h => h
  rw [h2] at hv
  exact List.mem_filter.2 ⟨all_mem v, hv⟩

theorem update_sat {m : Mod σ} {u : Prop} (hm : Lawful m) {s : S σ} (h : Inv m s) (run : Run σ)
    (hk : ∀ st, Keeps m st (run.f st)) :
    (update m run s).Sat u
      (fun s' _ => Post m (m.setNum (run.f s.st) .Time
        (m.num (run.f s.st) .Time + m.num (run.f s.st) .TimeStep)) s s' ∧ run.threw = false ∧
        ∀ v, s'.uset v = true → Cur m s' v)
      (fun s' => s' = { s with st := run.f s.st } ∧ run.threw = true) := by
  unfold update
  dsimp only
  split
  · next ht => exact ⟨rfl, ht⟩
  next ht =>
  have h1 : Post m (run.f s.st) s { s with st := run.f s.st } := 
    ⟨h.keep (hk _), rfl, fun _ h => h, fun _ _ h => h⟩
  refine R.Sat.bind (rmSet_sat h1.inv hm (hm.setNum _ _ _) (.inr (.inl ?_)) _) fun s2 _ h2 => ?_
  · intro w hw; simp [Var.announces] at hw; subst hw; rfl
  · refine (updateVariables_sat hm h2.inv).mono id (fun s3 _ h3 => ?_) fun _ h => h
    have := h1.trans (h2.trans h3.1)
    exact ⟨this.cast h2.st, by simpa using ht, h3.2⟩

theorem updateUntil_sat {m : Mod σ} {u : Prop} (hm : Lawful m) {s : S σ} (h : Inv m s) (run : Run σ)
    (t : ℚ) (hk : ∀ st, Keeps m st (run.f st)) :
    (updateUntil m run t s).Sat u
      (fun s' _ => (m.num s.st .Time ≤ t ∧ Post m (m.setNum (run.f (m.setNum s.st .TimeStep
          (t - m.num s.st .Time))) .Time t) s s' ∧ run.threw = false ∧
          ∀ v, s'.uset v = true → Cur m s' v) ∨
        (t < m.num s.st .Time ∧ s' = s))
      (fun s' => m.num s.st .Time ≤ t ∧
        Post m (run.f (m.setNum s.st .TimeStep (t - m.num s.st .Time))) s s' ∧ run.threw = true) := by
  unfold updateUntil
  dsimp only
  split
  swap
  · next hc => exact .inr ⟨by linarith, rfl⟩
  next hc =>
  have hle : m.num s.st .Time ≤ t := by linarith
  refine R.Sat.bind (rmSet_sat h hm (hm.setNum _ _ _) (.inr (.inl ?_)) _) fun s1 _ h1 => ?_
  · intro w hw; simp [Var.announces] at hw; subst hw; rfl
  have h2 : Post m (run.f s1.st) s { s1 with st := run.f s1.st } :=
    h1.trans ⟨h1.inv.keep (hk _), rfl, fun _ h => h, fun _ _ h => h⟩
  split
  · next ht => exact ⟨hle, h2.cast (by rw [h1.st]), ht⟩
  next ht =>
  refine R.Sat.bind (rmSet_sat h2.inv hm (hm.setNum _ _ _) (.inr (.inl ?_)) _) fun s3 _ h3 => ?_
  · intro w hw; simp [Var.announces] at hw; subst hw; rfl
  refine (updateVariables_sat hm h3.inv).mono id (fun s4 _ h4 => ?_) fun _ h => h
  refine .inl ⟨hle, (h2.trans (h3.trans h4.1)).cast ?_, by simpa using ht, h4.2⟩
  rw [h3.st]
  simp only [h1.st]

/-! ### `FindComponents` -/

/-- The state of the module a variable's variant has been adjusted to. -/
def Mixed (m : Mod σ) (old : σ) (vs : List Var) (s : S σ) : Prop :=
  ∀ v, VInv m (if v ∈ vs then old else s.st) (s.pset v) (s.uset v) v (s.va v)

/-- Once a pointer is out, the storage suffices for the new size. -/
def Fits (m : Mod σ) (s : S σ) (v : Var) : Prop :=
  ∀ q, (s.va v).void = some q → v.isVec = true → m.size s.st v ≤ (s.va v).buf.cap

theorem reset_one {m : Mod σ} {u : Prop} {Q : S σ → Prop} (hm : Lawful m) (old : σ) (v : Var)
    (vs : List Var) (hv : v ∉ vs) (s : S σ) (h : Mixed m old (v :: vs) s) (hf : Fits m s v) :
    (varFn m .info v (s.upd v (fun a => { a with init := false }))).Sat u
      (fun s' _ => Mixed m old vs s' ∧ s'.st = s.st ∧ (∀ w, w ≠ v → s'.va w = s.va w) ∧ (s'.va v).void = (s.va v).void ∧
        (v.stays = true → (s'.va v).init = true) ∧ s'.auto = s.auto) Q := by
  rw [varFn_plain _ _ _ (by decide)]
  unfold plain plainBody
  rw [if_neg (by rw [allows_info]; decide)]
  obtain ⟨a1, a2, a3, a4, a5, a6⟩ := enter_frame v (s.upd v (fun a => { a with init := false }))
  set t := enter v (s.upd v (fun a => { a with init := false })) with ht
  obtain ⟨b1, b2, b3, -, b5, b6⟩ := setup_frame m v t
  have ho : ∀ w, w ≠ v → (setup m v t).va w = s.va w := by
    intro w hw
    rw [b6 w hw, a2, upd_other _ _ _ _ hw]
  have hva : t.va v = { s.va v with init := false } := by rw [a2, upd_same]
  have hold := h v
  rw [if_pos (by simp)] at hold
  refine ⟨fun w => ?_, by show (setup m v t).st = _; rw [b1, a1]; rfl, ho, ?_, ?_, ?_⟩
  · show VInv m (if w ∈ vs then old else (setup m v t).st) ((setup m v t).pset w)
      ((setup m v t).uset w) w ((setup m v t).va w)
    rw [b2, b3]
    by_cases hw : w = v
    · subst hw
      rw [if_neg hv]
      refine setup_fresh m hm w t _ (by rw [hva]) (by rw [hva]; exact hold.cap) ?_ ?_
        (by rw [hva]; exact hold.typ) b1
      · intro hu
        rw [a4] at hu
        exact (hold.uses hu).2
      · intro q hq
        rw [hva] at hq
        obtain ⟨p1, p2, p3, p4, p5⟩ := hold.point q hq
        rw [a3, a4, hva]
        refine ⟨p2, p3, p4, p5, fun hvec => ?_⟩
        rw [a1]
        exact hf q hq hvec
    · rw [ho w hw, a3, a4, b1, a1]
      have := h w
      simp only [List.mem_cons, hw, false_or] at this
      exact this
  · show ((setup m v t).va v).void = _
    rw [setup_void, hva]
  · intro hs
    exact setup_init m v t hs
  · show (setup m v t).auto = _
    rw [b5, a6]; rfl

theorem loop_reset {m : Mod σ} {u : Prop} {Q : S σ → Prop} (hm : Lawful m) (old : σ) :
    ∀ (vs : List Var), vs.Nodup → ∀ (s : S σ), Mixed m old vs s → (∀ v ∈ vs, Fits m s v) →
      (loop (fun v s => varFn m .info v (s.upd v (fun a => { a with init := false }))) vs s).Sat u
        (fun s' _ => Inv m s' ∧ s'.st = s.st ∧
          (∀ v, v.stays = true → (v ∈ vs ∨ (s.va v).init = true) → (s'.va v).init = true) ∧
          s'.auto = s.auto ∧ ∀ w, (s'.va w).void = (s.va w).void) Q
  | [], _, s, h, _ =>
    ⟨fun v => by simpa using h v, rfl, fun v _ hv => by simpa using hv, rfl, fun _ => rfl⟩
  | v :: vs, hn, s, h, hf => by
    rw [loop]
    obtain ⟨hn1, hn2⟩ := List.nodup_cons.1 hn
    refine R.Sat.bind (reset_one hm old v vs hn1 s h (hf v (by simp)))
      fun s1 _ ⟨h1, h2, h3, hp, h4, h5⟩ => ?_
    refine (loop_reset hm old vs hn2 s1 h1 fun w hw => ?_).mono id
      (fun s2 _ ⟨g1, g2, g3, g4, g5⟩ => ⟨g1, g2.trans h2, fun w hs hw => g3 w hs ?_, g4.trans h5,
        fun w => (g5 w).trans ?_⟩)
      fun _ h => h
    · have hne : w ≠ v := by rintro rfl; exact hn1 hw
      have := hf w (by simp [hw])
      unfold Fits at this ⊢
      rw [h3 w hne, h2]; exact this
    · by_cases e : w = v
      · subst e; exact .inr (h4 hs)
      · rw [h3 w e]; simpa [e] using hw
    · by_cases e : w = v
      · subst e; exact hp
      · rw [h3 w e]

theorem all_nodup : Var.all.Nodup := by decide

theorem findComponents_sat {m : Mod σ} {u : Prop} {Q : S σ → Prop} (hm : Lawful m) {s : S σ}
    (h : Inv m s) (f : σ → σ) (auto : List (List Char × Auto))
    (hg : (Op.findComponents f auto).NoGrowth m s) :
    (findComponents m f auto s).Sat u (fun s' _ => Inv m s' ∧ s'.st = f s.st ∧
      (∀ v, v.stays = true → (s'.va v).init = true) ∧ s'.auto = auto ∧
      ∀ w, (s'.va w).void = (s.va w).void) Q := by
  unfold findComponents
  refine (loop_reset hm s.st Var.all all_nodup _ ?_ ?_).mono id
    (fun s' _ ⟨h1, h2, h3, h4, h5⟩ => ⟨h1, h2, fun v hs => h3 v hs (.inl (all_mem v)), h4, h5⟩) fun _ h => h
  · intro v
    rw [if_pos (all_mem v)]
    exact h v
  · intro v _ q hq hvec
    simp only at hq ⊢
    obtain ⟨p1, -, -, p4, -⟩ := (h v).point q hq
    have hns : v ≠ .SelectedOutput := by rintro rfl; simp [Var.flags] at p4
    have hsh := ((h v).shape hvec hns p1).1
    have hcap := (h v).cap
    rw [hsh] at hcap
    refine le_trans ?_ hcap
    rcases hg with hg | hg
    · cases v <;> simp [Mod.size] at hns ⊢ <;>
        first | exact hg | exact Nat.mul_le_mul_left _ hg
    · have h1 : v ≠ .Concentrations := by rintro rfl; rw [hg.1] at hq; cases hq
      have h2 : v ≠ .Gfw := by rintro rfl; rw [hg.2] at hq; cases hq
      cases v <;> simp [Mod.size] at hns h1 h2 ⊢

/-! ### Names and counts -/

/-- What the loops over all variables see. -/
def listed (v : Var) (a : Variant) : Prop := v.stays = true → (a.set, a.get, a.ptr) = v.flags

theorem names_sat {m : Mod σ} {u : Prop} {Q : S σ → Prop} (hm : Lawful m) (flag : Variant → Bool) :
    ∀ (vs : List Var) (l : List (List Char)) (s : S σ), Inv m s →
      (namesLoop m flag vs l s).Sat u (fun s' _ => Post m s.st s s' ∧
        (∀ v ∈ vs, v.stays = true → (s'.va v).init = true) ∧ s'.auto = s.auto) Q
  | [], _, _, h => ⟨Post.refl h, by simp, rfl⟩
  | v :: vs, l, s, h => by
    rw [namesLoop]
    refine R.Sat.bind (ensure_sat h hm) fun s1 _ h1 => ?_
    refine (names_sat hm flag vs _ s1 h1.1.inv).mono id (fun s2 _ h2 => ?_) fun _ h => h
    refine ⟨h1.1.trans (h1.1.st ▸ h2.1), fun w hw hs => ?_, h2.2.2.trans h1.2.2⟩
    rcases List.mem_cons.1 hw with rfl | hw
    · exact h2.1.mono _ (h1.2.1 hs)
    · exact h2.2.1 w hw hs

theorem Ready.of_all {s : S σ} (h : ∀ v : Var, v.stays = true → (s.va v).init = true) : Ready s :=
  ⟨h _ rfl, h _ rfl⟩

/-! ### Every call -/

/-- The invariant, and nothing set up is forgotten. -/
def Good (m : Mod σ) (s s' : S σ) : Prop :=
  Inv m s' ∧ (Ready s → Ready s') ∧ ∀ w q, (s.va w).void = some q → (s'.va w).void = some q

theorem Post.good {m : Mod σ} {st : σ} {s s' : S σ} (h : Post m st s s') : Good m s s' :=
  ⟨h.inv, h.ready, h.keep⟩

theorem exec_sat {m : Mod σ} {u : Prop} (hm : Lawful m) {s : S σ} (h : Inv m s) (op : Op σ)
    (hk : op.Mild m) (hg : op.NoGrowth m s) (hr : u ∨ Ready s) (hs : u ∨ op.Safe m s) :
    (exec m op s).Sat u (fun s' _ => Good m s s') (fun s' => Good m s s') := by
  have gets : ∀ {α : Type} (v : Var) (f : Ex → α),
      R.Sat u (fun s' _ => Good m s s') (fun s' => Good m s s')
        ((ensure m v s).bind fun s _ => (varFn m .getVar v s).bind fun s _ => R.ok s (f s.ex)).drop :=
    fun v f => R.Sat.mono (drop_sat (P' := fun s' _ => Good m s s') (getEx_sat h hm f)
      fun _ _ h => h.1.good) id (fun _ _ h => h) fun _ h => h.1.good
  have sets : ∀ (v : Var) (f : Ex → Ex), (u ∨ v.grid = false) →
      R.Sat u (fun s' _ => Good m s s') (fun s' => Good m s s')
        ((ensure m v s).bind fun s _ => varFn m .setVar v { s with ex := f s.ex }) :=
    fun v f hd => (setEx_sat h hm f hr (hd.imp_right fun e hc => by rw [e] at hc; cases hc)).mono id
      (fun _ _ h => h.1.elim fun _ h => h.good) (fun _ h => h.1.good)
  cases op with
  | getRaw v =>
    exact R.Sat.mono (drop_sat (P' := fun s' _ => Good m s s') (getRaw_sat h hm hs)
      fun _ _ h => h.1.good) id (fun _ _ h => h) fun _ h => h.good
  | getVec v =>
    exact gets v (·.data)
  | getNum v =>
    exact gets v (·.dvar)
  | getInt v =>
    exact gets v (·.ivar)
  | getBool v =>
    exact gets v (·.bvar)
  | getStr v =>
    exact gets v (·.str)
  | getStrs v =>
    exact gets v (·.strs)
  | getPtr v =>
    exact R.Sat.mono (drop_sat (P' := fun s' _ => Good m s s') (getPtr_sat h hm)
      fun _ _ h => h.1.good) id (fun _ _ h => h) fun _ h => h.1.good
  | setRaw v x =>
    exact (setRaw_sat h hm hr hs).mono id
      (fun _ _ h => h.1.elim fun _ h => h.1.good) (fun _ h => h.good)
  | setVec v l =>
    refine (setVec_sat h hm hr).mono id (fun _ _ h => ?_) fun _ h => h.1.good
    rcases h with ⟨⟨_, h⟩, _⟩ | h
    · exact h.good
    · exact h.1.good
  | setNum v x =>
    exact sets v (fun e => { e with dvar := x }) (hs.imp_right fun hs => by
      simp only [Op.Safe, Op.Typed] at hs; simp [Var.grid, Var.isVec, hs])
  | setInt v x =>
    exact sets v (fun e => { e with ivar := x }) (hs.imp_right fun hs => by
      simp only [Op.Safe, Op.Typed] at hs; simp [Var.grid, Var.isVec, hs])
  | setBool v x =>
    exact sets v (fun e => { e with bvar := x, ctype := some .bool }) (hs.imp_right fun hs => by
      simp only [Op.Safe, Op.Typed] at hs; simp [Var.grid, Var.isVec, hs])
  | setStr v x =>
    exact sets v (fun e => { e with str := x }) (hs.imp_right fun hs => by
      simp only [Op.Safe, Op.Typed] at hs; simp [Var.grid, Var.isVec, hs])
  | update run =>
    exact (update_sat hm h run hk).mono id (fun _ _ h => h.1.good)
      fun s' h' => by obtain ⟨rfl, -⟩ := h'; exact ⟨h.keep (hk _), id, fun _ _ h => h⟩
  | updateUntil run t =>
    refine (updateUntil_sat hm h run t hk).mono id (fun s' _ h' => ?_) fun _ h => h.2.1.good
    rcases h' with h' | ⟨-, rfl⟩
    · exact h'.2.1.good
    · exact ⟨h, id, fun _ _ h => h⟩
  | rmSet v f =>
    exact (rmSet_sat h hm (hk _) (hr.imp_right .inr) (fun s' => Good m s s')).mono id
      (fun _ _ h => h.good) fun _ h => h
  | other f =>
    exact ⟨h.keep (hk _), id, fun _ _ h => h⟩
  | findComponents f auto =>
    exact (findComponents_sat hm h f auto hg).mono id
      (fun _ _ h => ⟨h.1, fun _ => .of_all h.2.2.1, fun w q hq => by rw [h.2.2.2.2]; exact hq⟩) fun _ h => h
  | inputNames =>
    exact drop_sat (names_sat hm _ _ _ s h) fun _ _ h => h.1.good
  | outputNames =>
    exact drop_sat (R.Sat.bind (P' := fun s' _ => Post m s.st s s') (names_sat hm _ _ _ s h)
      fun _ _ h => h.1) fun _ _ h => h.good
  | pointableNames =>
    exact drop_sat (names_sat hm _ _ _ s h) fun _ _ h => h.1.good

theorem inv_start (m : Mod σ) (st : σ) : Inv m (start st) := by
  intro v
  refine ⟨by simp [start, Variant.new], by simp [start, Variant.new], by simp [start, Variant.new],
    by simp [start, Variant.new], by simp [start], by simp [start, Variant.new],
    by simp [start, Variant.new], by simp [start, Variant.new], fun _ => rfl, .inl ⟨rfl, rfl⟩⟩

theorem inv_of_reach {m : Mod σ} (hm : Lawful m) {s : S σ} (h : Reach m s) : Inv m s := by
  induction h with
  | start st => exact inv_start m st
  | step op _ hk hg hl ih =>
    have := exec_sat (u := True) hm ih op hk hg (.inl trivial) (.inl trivial)
    rcases hl with hl | hl <;> rw [hl] at this <;> exact this.1

end Verif.BMI
