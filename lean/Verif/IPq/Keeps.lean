import Verif.IPq.Sessions

/-!
# Lemmas: what sessions keep
-/

namespace Verif.IPq

open Verif.IPq.Spec

variable {χ : Type}

theorem lastOf_snoc (k : Op → Bool) (h : List (Op × Res)) (o : Op) (r : Res) :
    lastOf k (h ++ [(o, r)]) = if k o then some (o, r) else lastOf k h := by
  unfold lastOf
  rw [List.filter_append]
  cases hk : k o <;> simp [hk]

theorem ite_iff' {α : Type} {p q : Prop} {dp : Decidable p} {dq : Decidable q} (h : p ↔ q) (a b : α) :
    (if p then a else b) = if q then a else b := by
  by_cases hq : q
  · rw [if_pos hq, if_pos (h.2 hq)]
  · rw [if_neg hq, if_neg (mt h.1 hq)]

/-! ## Accumulated lines -/

theorem superseded_drop (h : List Past) : Superseded (h ++ [.drop]) := Or.inl (by simp)

theorem superseded_line (h : List Past) (l : Text) :
    Superseded (h ++ [.line l]) ↔ (Superseded h ∨ .ran ∈ h) := by
  unfold Superseded
  constructor
  · rintro (hd | ⟨a, b, l', e, hr⟩)
    · simp at hd; exact Or.inl (Or.inl hd)
    · rcases List.eq_nil_or_concat b with hb | ⟨b', x, hb⟩
      · subst hb
        have := List.append_inj' e rfl
        rw [this.1]; exact Or.inr hr
      · subst hb
        have e' : h ++ [Past.line l] = (a ++ Past.line l' :: b') ++ [x] := by
          rw [e]; simp
        have := List.append_inj' e' rfl
        exact Or.inl (Or.inr ⟨a, b', l', this.1, hr⟩)
  · rintro ((hd | ⟨a, b, l', e, hr⟩) | hr)
    · exact Or.inl (by simp [hd])
    · exact Or.inr ⟨a, b ++ [.line l], l', by rw [e]; simp, hr⟩
    · exact Or.inr ⟨h, [], l, rfl, hr⟩

theorem superseded_quiet (h : List Past) (x : Past) (h1 : x ≠ .drop) (h2 : ∀ l, x ≠ .line l) :
    Superseded (h ++ [x]) ↔ Superseded h := by
  unfold Superseded
  constructor
  · rintro (hd | ⟨a, b, l', e, hr⟩)
    · rcases List.mem_append.mp hd with hd | hd
      · exact Or.inl hd
      · exact absurd (List.mem_singleton.mp hd).symm h1
    · rcases List.eq_nil_or_concat b with hb | ⟨b', y, hb⟩
      · subst hb
        have := List.append_inj' e rfl
        exact absurd (List.cons.inj this.2).1 (h2 l')
      · subst hb
        have e' : h ++ [x] = (a ++ Past.line l' :: b') ++ [y] := by rw [e]; simp
        exact Or.inr ⟨a, b', l', (List.append_inj' e' rfl).1, hr⟩
  · rintro (hd | ⟨a, b, l', e, hr⟩)
    · exact Or.inl (by simp [hd])
    · exact Or.inr ⟨a, b ++ [x], l', by rw [e]; simp, hr⟩

open Classical in
/-- The pending lines that stay pending when a line is added. -/
noncomputable def staying : List Past → List Text
  | [] => []
  | .line l :: rest => if Superseded rest ∨ .ran ∈ rest then staying rest else l :: staying rest
  | _ :: rest => staying rest

theorem pending_drop (h : List Past) : pending (h ++ [.drop]) = [] := by
  induction h with
  | nil => rfl
  | cons x xs ih =>
    cases x <;> simp only [List.cons_append, pending, ih]
    rw [if_pos (superseded_drop xs)]

theorem staying_drop (h : List Past) : staying (h ++ [.drop]) = [] := by
  induction h with
  | nil => rfl
  | cons x xs ih =>
    cases x <;> simp only [List.cons_append, staying, ih]
    rw [if_pos (Or.inl (superseded_drop xs))]

theorem pending_ran (h : List Past) : pending (h ++ [.ran]) = pending h := by
  induction h with
  | nil => rfl
  | cons x xs ih =>
    cases x <;> simp only [List.cons_append, pending, ih]
    exact ite_iff' (superseded_quiet xs .ran (by simp) (by simp)) _ _

theorem pending_other (h : List Past) : pending (h ++ [.other]) = pending h := by
  induction h with
  | nil => rfl
  | cons x xs ih =>
    cases x <;> simp only [List.cons_append, pending, ih]
    exact ite_iff' (superseded_quiet xs .other (by simp) (by simp)) _ _

theorem staying_ran (h : List Past) : staying (h ++ [.ran]) = [] := by
  induction h with
  | nil => rfl
  | cons x xs ih =>
    cases x <;> simp only [List.cons_append, staying, ih]
    rw [if_pos (Or.inr (by simp))]

theorem staying_other (h : List Past) : staying (h ++ [.other]) = staying h := by
  induction h with
  | nil => rfl
  | cons x xs ih =>
    cases x <;> simp only [List.cons_append, staying, ih]
    exact ite_iff' (or_congr (superseded_quiet xs .other (by simp) (by simp)) (by simp)) _ _

theorem pending_line (h : List Past) (l : Text) :
    pending (h ++ [.line l]) = staying h ++ [l] := by
  induction h with
  | nil =>
    have : ¬ Superseded [] := by
      rintro (hd | ⟨a, b, l', e, hr⟩)
      · simp at hd
      · simp at e
    simp [pending, staying, this]
  | cons x xs ih =>
    cases x <;> simp only [List.cons_append, pending, staying, ih]
    rw [ite_iff' (dq := Classical.propDecidable _) (superseded_line xs l)]
    split_ifs <;> rfl

theorem staying_line (h : List Past) (l : Text) :
    staying (h ++ [.line l]) = staying h ++ [l] := by
  induction h with
  | nil =>
    have : ¬ Superseded [] := by
      rintro (hd | ⟨a, b, l', e, hr⟩)
      · simp at hd
      · simp at e
    simp [staying, this]
  | cons x xs ih =>
    cases x <;> simp only [List.cons_append, staying, ih]
    rw [ite_iff' (dq := Classical.propDecidable _) (or_congr (superseded_line xs l)
      (show Past.ran ∈ xs ++ [Past.line l] ↔ Past.ran ∈ xs by simp))]
    by_cases hc : Superseded xs ∨ Past.ran ∈ xs
    · rw [if_pos hc, if_pos (Or.inl hc)]
    · rw [if_neg hc, if_neg (by tauto)]
      rfl

/-- The accumulated text holds the pending lines. -/
def AccInv (s : St χ) (h : List Past) : Prop :=
  s.acc = render (pending h) ∧ (s.clearAcc = false → staying h = pending h) ∧
    (s.clearAcc = true → staying h = [])

theorem render_append (a b : List Text) : render (a ++ b) = render a ++ render b := by
  simp [render]

theorem AccInv.dropped {s : St χ} (h : List Past) (ha : s.acc = []) : AccInv s (h ++ [.drop]) := by
  refine ⟨?_, fun _ => ?_, fun _ => staying_drop h⟩
  · rw [pending_drop, ha]; rfl
  · rw [pending_drop, staying_drop]

theorem AccInv.same {s s' : St χ} {h : List Past} (hi : AccInv s h) (ha : s'.acc = s.acc)
    (hc : s'.clearAcc = s.clearAcc) : AccInv s' (h ++ [.other]) := by
  refine ⟨?_, fun hh => ?_, fun hh => ?_⟩
  · rw [pending_other, ha]; exact hi.1
  · rw [pending_other, staying_other]; exact hi.2.1 (by rw [← hc]; exact hh)
  · rw [staying_other]; exact hi.2.2 (by rw [← hc]; exact hh)

theorem runString_acc (E : Engine χ) (r : Text) (i : Text ⊕ Text) (s : St χ) :
    (after (body E r i (dropAcc s))).1.acc = [] := by
  have h := (kept_body E r i (dropAcc s)).comp (kept_after _)
  rw [h.acc]
  rfl

theorem loadDb_acc (E : Engine χ) (r : Text) (i : Text ⊕ Text) (s : St χ) :
    (loadDb E r i s).1.acc = [] ∧ (loadDb E r i s).1.sw = s.sw ∧
    (loadDb E r i s).1.updComp = true ∧
    (loadDb E r i s).1.dumpLines = getlines (loadDb E r i s).1.dump := by
  rcases loadDb_cases E r i s with ⟨m, _, e⟩ | ⟨t, _, _, e⟩ | ⟨t, evs, x, _, _, e⟩ |
    ⟨t, evs, x, _, _, e⟩
  · have h := same_errorMsg (unload E s) m
    have h2 := errorMsg_rest (unload E s) m
    rw [e]
    exact ⟨h.acc, h.sw, h.updComp, by
      show (errorMsg (unload E s) m).dumpLines = getlines (errorMsg (unload E s) m).dump
      rw [h2.2.2.2.1, h2.2.2.2.2]; rfl⟩
  · rw [e]; exact ⟨rfl, rfl, rfl, rfl⟩
  · have h := same_apps (unload E s) evs
    rw [e]
    exact ⟨h.acc, h.sw, h.updComp, apps_dumpLines (unload E s) evs rfl⟩
  · have h := same_apps (unload E s) evs
    have h' := same_errorMsg { apps (unload E s) evs with eng := x } (thrownMsg r none)
    have h2 := errorMsg_rest { apps (unload E s) evs with eng := x } (thrownMsg r none)
    rw [e]
    refine ⟨h'.acc.trans h.acc, h'.sw.trans h.sw, h'.updComp.trans h.updComp, ?_⟩
    have hd := apps_dumpLines (unload E s) evs rfl
    exact h2.2.2.2.2.trans (hd.trans (congrArg getlines h2.2.2.2.1.symm))

theorem testDb_acc (E : Engine χ) (s : St χ) : (testDb E s).1.acc = [] := by
  obtain ⟨x, t, s', e, _⟩ := testDb_cases E s
  have h := runString_acc E "RunString".toList (.inl t) s'
  have h2 : (runString E t s').1.acc = [] := h
  rw [e] at h2
  exact h2

theorem load_acc (E : Engine χ) (r : Text) (i : Text ⊕ Text) (s : St χ) :
    (load E r i s).1.acc = [] := by
  rcases load_cases E r i s with ⟨q, e, h, _⟩ | ⟨q, e, _, h⟩
  · rw [e]
    have := (loadDb_acc E r i (quiet s)).1
    rw [← h] at this
    exact this
  · rw [e]
    have := testDb_acc E (loadDb E r i (quiet s)).1
    rw [← h] at this
    exact this

theorem runAccumulated_acc (E : Engine χ) (s : St χ) :
    (runAccumulated E s).1.acc = s.acc ∧
    ((∃ n, (runAccumulated E s).2 = .ret n) → (runAccumulated E s).1.clearAcc = true) ∧
    ((∀ n, (runAccumulated E s).2 ≠ .ret n) →
      (runAccumulated E s).1.clearAcc = s.clearAcc) := by
  have hk := kept_body E "RunAccumulated".toList (.inl s.acc) s
  have hr : ∀ n, (body E "RunAccumulated".toList (.inl s.acc) s).2 ≠ some (.ret n) := by
    intro n hn
    rcases body_cases E "RunAccumulated".toList (.inl s.acc) s with ⟨_, hb⟩ | ⟨_, m, hm, hb⟩ |
      ⟨_, _, hb⟩ | ⟨_, _, hb⟩ | ⟨_, _, t, _, hc, hb⟩
    · rw [hb] at hn; simp at hn
    · simp at hm
    · rw [hb] at hn; simp at hn
    · rw [hb] at hn; simp at hn
    · rename_i hd hl ht
      simp only [Sum.inl.injEq] at ht
      subst ht
      rw [body_calm E _ _ s hd hl hc] at hn; simp at hn
  unfold runAccumulated
  generalize body E "RunAccumulated".toList (.inl s.acc) s = p at hk hr ⊢
  rcases p with ⟨q, v⟩
  cases v with
  | some r =>
    refine ⟨hk.acc, fun ⟨n, hn⟩ => ?_, fun _ => hk.clearAcc⟩
    dsimp only at hn
    exact absurd (by rw [hn]) (hr n)
  | none => exact ⟨hk.acc, fun _ => rfl, fun h => absurd rfl (h _)⟩

theorem accInv_step (E : Engine χ) (s : St χ) (h : List Op) (o : Op)
    (hi : AccInv s (h.map past))
    (hret : o = .runAccumulated → ∃ n, (step E s o).2 = .ret n) :
    AccInv (step E s o).1 ((h ++ [o]).map past) := by
  rw [List.map_append, List.map_cons, List.map_nil]
  cases o with
  | accumulate l =>
    show AccInv (accumulateLine l s) (h.map past ++ [.line l])
    have hc : (accumulateLine l s).clearAcc = false := by
      unfold accumulateLine dropAcc
      dsimp only
      split_ifs with hcl
      · rfl
      · simpa using hcl
    refine ⟨?_, fun _ => ?_, fun hh => ?_⟩
    · rw [pending_line, render_append]
      unfold accumulateLine dropAcc
      dsimp only
      split_ifs with hcl
      · rw [hi.2.2 hcl]; simp [render]
      · rw [hi.2.1 (by simpa using hcl), hi.1]; simp [render]
    · rw [pending_line, staying_line]
    · rw [hc] at hh; simp at hh
  | clearAccumulated => exact AccInv.dropped _ rfl
  | runAccumulated =>
    obtain ⟨h1, h2, _⟩ := runAccumulated_acc E s
    show AccInv (runAccumulated E s).1 (h.map past ++ [.ran])
    have hc := h2 (hret rfl)
    refine ⟨?_, fun hh => ?_, fun _ => staying_ran _⟩
    · rw [pending_ran, h1]; exact hi.1
    · rw [hc] at hh; simp at hh
  | runString t => exact AccInv.dropped _ (runString_acc E _ _ s)
  | runFile f c => exact AccInv.dropped _ (runString_acc E _ _ s)
  | loadDatabase f c => exact AccInv.dropped _ (load_acc E _ _ s)
  | loadString t => exact AccInv.dropped _ (load_acc E _ _ s)
  | setSwitch w b => exact hi.same rfl rfl
  | setCurrent n =>
    refine hi.same ?_ ?_ <;> (simp only [step, setCurrent]; split_ifs <;> rfl)
  | setSelString b => exact hi.same rfl rfl
  | components =>
    refine hi.same ?_ ?_ <;> (simp only [step, listComponents]; split_ifs <;> rfl)
  | selValue c => refine hi.same ?_ ?_ <;> cases c <;> rfl
  | addError t => exact hi.same rfl rfl
  | addWarning t => exact hi.same rfl rfl

theorem acc_session (E : Engine χ) (ops : List Op)
    (h : RunsCame (session E (fresh E) ops).2) :
    AccInv (session E (fresh E) ops).1 (ops.map past) := by
  have key := session_inv E (fun s h => RunsCame h → AccInv s ((h.map Prod.fst).map past))
    (fresh E) (fun _ => ⟨rfl, fun _ => rfl, fun _ => rfl⟩) ?_ ops h
  · rw [session_ops] at key; exact key
  intro s h o ih hz
  have := accInv_step E s (h.map Prod.fst) o (ih (fun p hp => hz p (by simp [hp])))
    (fun ho => hz (o, (step E s o).2) (by simp) ho)
  rw [List.map_append (f := Prod.fst)]
  exact this

/-! ## Definedness -/

theorem after_defined (E : Engine χ) (r : Text) (i : Text ⊕ Text) (s : St χ)
    (hl : s.dead = false) :
    (after (body E r i s)).2 = .thrown ∨
      ∃ n, (after (body E r i s)).2 = .ret n ∧ (after (body E r i s)).1.dead = false := by
  rcases body_cases E r i s with ⟨_, hb⟩ | ⟨_, m, _, hb⟩ | ⟨_, h, hb⟩ | ⟨_, _, hb⟩ |
    ⟨_, _, t, _, _, hb⟩
  · rw [hb]; exact Or.inr ⟨_, rfl, rfl⟩
  · rw [hb]; exact Or.inr ⟨_, rfl, rfl⟩
  · rw [hl] at h; simp at h
  · rw [after_res hb]; exact Or.inl rfl
  · rw [hb]; exact Or.inr ⟨_, rfl, rfl⟩

theorem load_defined (E : Engine χ) (r : Text) (i : Text ⊕ Text) (s : St χ)
    (hl : s.dead = false) :
    (load E r i s).2 = .thrown ∨ ∃ n, (load E r i s).2 = .ret n ∧ (load E r i s).1.dead = false := by
  have hdb : (loadDb E r i (quiet s)).2 = .thrown ∨
      ∃ n, (loadDb E r i (quiet s)).2 = .ret n ∧ (loadDb E r i (quiet s)).1.dead = false := by
    rcases loadDb_cases E r i (quiet s) with ⟨m, _, e⟩ | ⟨t, _, hd, e⟩ | ⟨t, evs, x, _, _, e⟩ |
      ⟨t, evs, x, _, _, e⟩
    · rw [e]; exact Or.inr ⟨_, rfl, rfl⟩
    · rw [show (quiet s).dead = false from hl] at hd; simp at hd
    · rw [e]; exact Or.inr ⟨_, rfl, rfl⟩
    · rw [e]; exact Or.inl rfl
  rcases load_cases E r i s with ⟨q, e, h, _⟩ | ⟨q, e, h0, h⟩
  · rw [← h] at hdb
    rw [e]
    exact hdb
  · rw [e]
    obtain ⟨x, t, s', hr, hs'⟩ := testDb_cases E (loadDb E r i (quiet s)).1
    have hd : (loadDb E r i (quiet s)).1.dead = false := by
      rcases hdb with hdb | ⟨n, _, hd⟩
      · rw [h0] at hdb; simp at hdb
      · exact hd
    have := after_defined E "RunString".toList (.inl t) (dropAcc s') (by
      rw [hs']; exact hd)
    have hrun : after (body E "RunString".toList (.inl t) (dropAcc s')) =
        ({ (testDb E (loadDb E r i (quiet s)).1).1 with eng := x },
          (testDb E (loadDb E r i (quiet s)).1).2) := hr
    rw [hrun, ← h] at this
    exact this

theorem step_defined (E : Engine χ) (s : St χ) (o : Op) (hl : s.dead = false) :
    (step E s o).2 = .thrown ∨ ∃ n, (step E s o).2 = .ret n ∧ (step E s o).1.dead = false := by
  cases o with
  | runAccumulated =>
    have h := after_defined E "RunAccumulated".toList (.inl s.acc) s hl
    simp only [step, runAccumulated]
    generalize body E "RunAccumulated".toList (.inl s.acc) s = p at h ⊢
    rcases p with ⟨q, v⟩
    cases v with
    | none => exact Or.inr ⟨_, rfl, rfl⟩
    | some r => exact h
  | runString t => exact after_defined E _ _ (dropAcc s) hl
  | runFile f c => exact after_defined E _ _ (dropAcc s) hl
  | loadDatabase f c => exact load_defined E _ _ s hl
  | loadString t => exact load_defined E _ _ s hl
  | accumulate l =>
    refine Or.inr ⟨0, rfl, ?_⟩
    simp only [step, accumulateLine, dropAcc]; split_ifs <;> exact hl
  | setCurrent n => refine Or.inr ⟨0, rfl, ?_⟩; simp only [step, setCurrent]; split_ifs <;> exact hl
  | components => refine Or.inr ⟨0, rfl, ?_⟩; simp only [step, listComponents]; split_ifs <;> exact hl
  | selValue c => refine Or.inr ⟨0, rfl, ?_⟩; cases c <;> exact hl
  | _ => exact Or.inr ⟨0, rfl, hl⟩

theorem dead_session (E : Engine χ) (ops : List Op)
    (h : NoThrow (session E (fresh E) ops).2) : (session E (fresh E) ops).1.dead = false := by
  refine session_inv E (fun s h => NoThrow h → s.dead = false) (fresh E) (fun _ => rfl) ?_ ops h
  intro s h o ih hn
  have hd := ih (fun p hp => hn p (by simp [hp]))
  rcases step_defined E s o hd with ht | ⟨n, _, hd'⟩
  · exact absurd ht (hn (o, (step E s o).2) (by simp))
  · exact hd'

end Verif.IPq
