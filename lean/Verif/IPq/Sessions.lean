import Verif.IPq.Runs

/-!
# Lemmas: what every call keeps
-/

namespace Verif.IPq

open Verif.IPq.Spec

variable {χ : Type}

/-! ## How a run can come out -/

theorem body_not_loaded (E : Engine χ) (r : Text) (i : Text ⊕ Text) (s : St χ)
    (hd : s.dbLoaded = false) :
    body E r i s = (errorMsg { release s with inErr := 1 }
      (r ++ ": No database is loaded".toList), none) := by
  unfold body
  dsimp only
  rw [if_pos (show (release s).dbLoaded = false from hd)]

theorem body_no_file (E : Engine χ) (r m : Text) (s : St χ) (hd : s.dbLoaded = true) :
    body E r (.inr m) s = (errorMsg (base s) m, none) := by
  unfold body
  dsimp only
  rw [if_neg (by rw [show (release s).dbLoaded = true from hd]; decide)]
  rfl

theorem body_dead (E : Engine χ) (r t : Text) (s : St χ) (hd : s.dbLoaded = true)
    (hl : s.dead = true) : body E r (.inl t) s = (base s, some .ub) := by
  unfold body
  dsimp only
  rw [if_neg (by rw [show (release s).dbLoaded = true from hd]; decide),
    if_pos (show (release s).dead = true from hl)]
  rfl

theorem body_thrown (E : Engine χ) (r t : Text) (s : St χ) (hd : s.dbLoaded = true)
    (hl : s.dead = false) (hc : ¬ Calm E t s) : (body E r (.inl t) s).2 = some .thrown := by
  rw [body_loaded E r t s hd hl]
  unfold doRun
  have h3 : (base s).eng = s.eng := rfl
  have h4 : (base s).sw = s.sw := rfl
  rw [h3, h4]
  unfold Calm at hc
  generalize E.run s.eng s.sw t = q at hc ⊢
  rcases q with ⟨evs, e, x⟩
  cases e with
  | fin => exact absurd (fun w => by simp) hc
  | stop m => exact absurd (fun w => by simp) hc
  | thrown w => rfl

/-- A run left by an exception, or undefined, or ended. -/
theorem body_cases (E : Engine χ) (r : Text) (i : Text ⊕ Text) (s : St χ) :
    (s.dbLoaded = false ∧ body E r i s = (errorMsg { release s with inErr := 1 }
      (r ++ ": No database is loaded".toList), none)) ∨
    (s.dbLoaded = true ∧ ∃ m, i = .inr m ∧ body E r i s = (errorMsg (base s) m, none)) ∨
    (s.dbLoaded = true ∧ s.dead = true ∧ body E r i s = (base s, some .ub)) ∨
    (s.dbLoaded = true ∧ s.dead = false ∧ (body E r i s).2 = some .thrown) ∨
    (s.dbLoaded = true ∧ s.dead = false ∧ ∃ t, i = .inl t ∧ Calm E t s ∧
      after (body E r i s) = (ended E t s, .ret (ended E t s).inputErrors)) := by
  cases hd : s.dbLoaded with
  | false => exact Or.inl ⟨rfl, body_not_loaded E r i s hd⟩
  | true =>
    refine Or.inr ?_
    cases i with
    | inr m => exact Or.inl ⟨rfl, m, rfl, body_no_file E r m s hd⟩
    | inl t =>
      refine Or.inr ?_
      cases hl : s.dead with
      | true => exact Or.inl ⟨rfl, rfl, body_dead E r t s hd hl⟩
      | false =>
        refine Or.inr ?_
        by_cases hc : Calm E t s
        · exact Or.inr ⟨rfl, rfl, t, rfl, hc, after_body_calm E r t s hd hl hc⟩
        · exact Or.inl ⟨rfl, rfl, body_thrown E r t s hd hl hc⟩

theorem ran_ioErr (E : Engine χ) (t : Text) (s : St χ) :
    (ran E t s).ioErr =
      (errors (said (E.run s.eng s.sw t).1 (E.run s.eng s.sw t).2.1)).length := by
  have := apps_ioErr (base s) (said (E.run s.eng s.sw t).1 (E.run s.eng s.sw t).2.1)
  unfold ran
  rw [show (base s).ioErr = 0 from rfl, Nat.zero_add] at this
  exact this

theorem errors_said_stop (evs : List Ev) (m : Text) : errors (said evs (.stop m)) ≠ [] := by
  simp [said, errors, List.filterMap_append]

/-- A run that returns 0 was read to its end. -/
theorem run_zero (E : Engine χ) (r : Text) (i : Text ⊕ Text) (s s' : St χ)
    (h : after (body E r i s) = (s', .ret 0)) :
    s.dbLoaded = true ∧ s.dead = false ∧ ∃ t, i = .inl t ∧ (E.run s.eng s.sw t).2.1 = .fin ∧
      s' = { updateErrors (finish E (ran E t s)) with dead := false } := by
  rcases body_cases E r i s with ⟨_, hb⟩ | ⟨_, m, _, hb⟩ | ⟨_, _, hb⟩ | ⟨_, _, hb⟩ |
    ⟨h1, h2, t, h3, hc, hb⟩
  · rw [hb, after_none] at h
    have := congrArg Prod.snd h
    simp only [Res.ret.injEq] at this
    exact absurd this (errorMsg_inputErrors _ _)
  · rw [hb, after_none] at h
    have := congrArg Prod.snd h
    simp only [Res.ret.injEq] at this
    exact absurd this (errorMsg_inputErrors _ _)
  · rw [hb] at h
    have := congrArg Prod.snd h
    simp [after] at this
  · rw [after_res hb] at h
    have := congrArg Prod.snd h
    simp at this
  · rw [hb] at h
    have hn := congrArg Prod.snd h
    simp only [Res.ret.injEq] at hn
    rw [inputErrors_ended] at hn
    refine ⟨h1, h2, t, h3, ?_⟩
    cases he : (E.run s.eng s.sw t).2.1 with
    | fin =>
      refine ⟨rfl, ?_⟩
      have hs := congrArg Prod.fst h
      simp only [ended, he] at hs
      exact hs.symm
    | stop m =>
      have : (ran E t s).ioErr ≠ 0 := by
        rw [ran_ioErr, he]
        intro h0
        exact errors_said_stop _ m (List.length_eq_zero_iff.mp h0)
      exact absurd hn (inputErrors_pos this)
    | thrown w => exact absurd he (hc w)

/-! ## Lines -/

/-- Output, log and selected-output lines are the lines of the strings. -/
def Good (s : St χ) : Prop :=
  s.outLines = getlines s.out ∧ s.logLines = getlines s.log ∧
  ∀ n, (OMap.find s.selLines n).getD [] = getlines ((OMap.find s.selStr n).getD [])

theorem fillSel_find (on : Int → Bool) (strs : OMap.SMap Int Text) (ns : List Int)
    (hn : ns.Nodup) (m : OMap.SMap Int (List Text)) (n : Int) :
    (OMap.find (fillSel on strs ns m) n).getD [] = (OMap.find m n).getD [] ++
      (if n ∈ ns ∧ on n = true then getlines ((OMap.find strs n).getD []) else []) := by
  induction ns generalizing m with
  | nil => simp [fillSel]
  | cons k ns ih =>
    have hk := List.nodup_cons.mp hn
    simp only [fillSel]
    rw [ih hk.2]
    by_cases hkn : n = k
    · subst hkn
      have h1 : ¬ (n ∈ ns ∧ on n = true) := fun h => hk.1 h.1
      rw [if_neg h1, List.append_nil]
      cases ho : on n with
      | false => simp
      | true =>
        simp only [if_true, List.mem_cons, true_or, true_and]
        cases hf : OMap.find strs n with
        | none => simp
        | some t =>
          dsimp only
          by_cases hg : getlines t = []
          · rw [if_pos hg]; simp [hg]
          · rw [if_neg hg, OMap.find_insert, if_pos rfl]; rfl
    · have h2 : (n ∈ k :: ns ∧ on n = true) ↔ (n ∈ ns ∧ on n = true) := by
        simp [hkn]
      simp only [h2]
      congr 2
      split
      · split
        · split
          · rfl
          · rw [OMap.find_insert, if_neg hkn]
        · rfl
      · rfl

theorem pieces_none (f : Ev → Option Bool) (g : Ev → Text) (b : Bool) (evs : List Ev)
    (h : ∀ e ∈ evs, g e = []) : pieces f g b evs = [] := by
  induction evs generalizing b with
  | nil => rfl
  | cons e es ih =>
    rw [pieces, h e (by simp), ih _ (fun e he => h e (by simp [he]))]
    simp

theorem good_finish (E : Engine χ) (hE : Tidy E) (t : Text) (s : St χ)
    (hf : (E.run s.eng s.sw t).2.1 = .fin) : Good (finish E (ran E t s)) := by
  have hev : said (E.run s.eng s.sw t).1 (E.run s.eng s.sw t).2.1 = (E.run s.eng s.sw t).1 := by
    rw [hf]; rfl
  have hran : ran E t s = { apps (base s) (E.run s.eng s.sw t).1 with
      eng := (E.run s.eng s.sw t).2.2 } := by
    unfold ran; rw [hev]
  have hk := same_apps (base s) (E.run s.eng s.sw t).1
  have hout : (ran E t s).out = if s.sw.outStr then printed (E.run s.eng s.sw t).1 else [] := by
    rw [hran]; exact (apps_out (base s) _).trans (by rw [show (base s).out = [] from rfl]; rfl)
  have hlog : (ran E t s).log = if s.sw.logStr then logged s.logOn (E.run s.eng s.sw t).1 else [] := by
    rw [hran]; exact (apps_log (base s) _).trans (by rw [show (base s).log = [] from rfl]; rfl)
  have hsw : (ran E t s).sw = s.sw := by rw [hran]; exact hk.sw
  have hol : (ran E t s).outLines = [] := by rw [hran]; exact hk.outLines
  have hll : (ran E t s).logLines = [] := by rw [hran]; exact hk.logLines
  have hsl : (ran E t s).selLines = [] := by rw [hran]; exact hk.selLines
  have hcur : (ran E t s).cur = s.cur := by rw [hran]; exact hk.cur
  have hson : (ran E t s).selOn = s.selOn := by rw [hran]; exact hk.selOn
  have heng : (ran E t s).eng = (E.run s.eng s.sw t).2.2 := by rw [hran]
  have hstr : ∀ n, (OMap.find (ran E t s).selStr n).getD [] =
      if (OMap.find s.selOn s.cur).getD false then punched n s.punchOn (E.run s.eng s.sw t).1 else [] := by
    intro n
    rw [hran]
    refine (apps_selStr (base s) _ n).trans ?_
    rw [show (base s).selStr = [] from rfl]
    rfl
  refine ⟨?_, ?_, ?_⟩
  · have : (finish E (ran E t s)).outLines =
        if (ran E t s).sw.outStr then (ran E t s).outLines ++ getlines (ran E t s).out
        else (ran E t s).outLines := by
      unfold finish updateErrors; dsimp only; split_ifs <;> rfl
    have h2 : (finish E (ran E t s)).out = (ran E t s).out := by
      unfold finish updateErrors; dsimp only; split_ifs <;> rfl
    rw [this, h2, hol, hsw, hout]
    split_ifs <;> rfl
  · have : (finish E (ran E t s)).logLines =
        if (ran E t s).sw.logStr then (ran E t s).logLines ++ getlines (ran E t s).log
        else (ran E t s).logLines := by
      unfold finish updateErrors; dsimp only; split_ifs <;> rfl
    have h2 : (finish E (ran E t s)).log = (ran E t s).log := by
      unfold finish updateErrors; dsimp only; split_ifs <;> rfl
    rw [this, h2, hll, hsw, hlog]
    split_ifs <;> rfl
  · intro n
    have h1 : (finish E (ran E t s)).selLines =
        fillSel (fun _ => (OMap.find (ran E t s).selOn (ran E t s).cur).getD false)
          (ran E t s).selStr (E.selNums (ran E t s).eng) (ran E t s).selLines := by
      unfold finish updateErrors selStringOn; dsimp only; split_ifs <;> rfl
    have h2 : (finish E (ran E t s)).selStr = (ran E t s).selStr := by
      unfold finish updateErrors; dsimp only; split_ifs <;> rfl
    rw [h1, h2, hsl, heng, hson, hcur]
    rw [fillSel_find _ _ _ (hE s.eng s.sw t).2]
    simp only [OMap.find, Option.getD_none, List.nil_append]
    rw [hstr]
    cases hon : (OMap.find s.selOn s.cur).getD false with
    | false => simp
    | true =>
      simp only [and_true, if_true]
      split_ifs with hn
      · rfl
      · rw [punched_eq, pieces_none, getlines_nil]
        intro e he
        cases e with
        | punch k u =>
          simp only [punchPiece]
          rw [if_neg]
          intro hk
          subst hk
          exact hn ((hE s.eng s.sw t).1 _ u he)
        | _ => rfl

/-! ## Loads -/

theorem same_unloaded (E : Engine χ) (s : St χ) : (unload E s).sw = s.sw ∧
    (unload E s).acc = [] ∧ (unload E s).clearAcc = false ∧ (unload E s).updComp = true ∧
    (unload E s).dead = s.dead ∧ (unload E s).dumpLines = getlines (unload E s).dump :=
  ⟨rfl, rfl, rfl, rfl, rfl, rfl⟩

/-- How reading a database can come out. -/
theorem loadDb_cases (E : Engine χ) (r : Text) (i : Text ⊕ Text) (s : St χ) :
    (∃ m, i = .inr m ∧ loadDb E r i s =
      ({ errorMsg (unload E s) m with dead := false, dbLoaded := false },
        .ret (errorMsg (unload E s) m).inputErrors)) ∨
    (∃ t, i = .inl t ∧ s.dead = true ∧ loadDb E r i s = (unload E s, .ub)) ∨
    (∃ t evs x, i = .inl t ∧ s.dead = false ∧
      loadDb E r i s = ({ { apps (unload E s) evs with eng := x } with
        dead := false, dbLoaded := ((apps (unload E s) evs).inputErrors == 0) },
        .ret (apps (unload E s) evs).inputErrors)) ∨
    (∃ t evs x, i = .inl t ∧ s.dead = false ∧
      loadDb E r i s = ({ errorMsg { apps (unload E s) evs with eng := x } (thrownMsg r none) with
        dead := true }, .thrown)) := by
  cases i with
  | inr m =>
    refine Or.inl ⟨m, rfl, ?_⟩
    unfold loadDb
    dsimp only
    have := errorMsg_inputErrors (unload E s) m
    rw [show ((errorMsg (unload E s) m).inputErrors == 0) = false by simpa using this]
  | inl t =>
    refine Or.inr ?_
    cases hl : s.dead with
    | true =>
      refine Or.inl ⟨t, rfl, rfl, ?_⟩
      unfold loadDb
      dsimp only
      rw [if_pos (show (unload E s).dead = true from hl)]
    | false =>
      refine Or.inr ?_
      unfold loadDb
      dsimp only
      rw [if_neg (by rw [show (unload E s).dead = false from hl]; decide)]
      generalize E.readDb (unload E s).eng (unload E s).sw t = q
      rcases q with ⟨evs, e, x⟩
      dsimp only
      cases e with
      | fin => exact Or.inl ⟨t, evs, x, rfl, rfl, rfl⟩
      | stop m =>
        refine Or.inl ⟨t, evs ++ [.err m], x, rfl, rfl, ?_⟩
        have hb := same_errorMsg (apps (unload E s) evs) m
        have h1 := errorMsg_over (apps (unload E s) evs) (apps (unload E s) evs).acc
          (apps (unload E s) evs).clearAcc x m
        have h2 : errorMsg { apps (unload E s) evs with eng := x } m =
            { apps (unload E s) (evs ++ [.err m]) with eng := x } := by
          refine Eq.trans h1 ?_
          unfold over
          rw [← hb.acc, ← hb.clearAcc, apps_append]
          rfl
        dsimp only
        rw [h2]
        rfl
      | thrown w => exact Or.inr ⟨t, evs, x, rfl, rfl, rfl⟩

theorem tested_zero (E : Engine χ) {p : St χ × Res} (h : p.2 = .ret 0) :
    tested E p = testDb E p.1 := by
  rcases p with ⟨s, v⟩
  dsimp only at h
  subst h
  rfl

theorem tested_other (E : Engine χ) {p : St χ × Res} (h : p.2 ≠ .ret 0) : tested E p = p := by
  rcases p with ⟨s, v⟩
  unfold tested
  split
  · rename_i heq
    exact absurd (congrArg Prod.snd heq) h
  · rfl

theorem restore_res (w : Switches) (p : St χ × Res) : (restore w p).2 = p.2 := by
  rcases p with ⟨s, v⟩
  cases v <;> rfl

theorem restore_st (w : Switches) (p : St χ × Res) :
    (restore w p).1 = { p.1 with sw := (restore w p).1.sw } := by
  rcases p with ⟨s, v⟩
  cases v <;> rfl

/-- What a load leaves behind in all its parts but the switches, as a case distinction. -/
theorem load_cases (E : Engine χ) (r : Text) (i : Text ⊕ Text) (s : St χ) :
    (∃ q, (load E r i s).1 = { q with sw := (load E r i s).1.sw } ∧
      (q, (load E r i s).2) = loadDb E r i (quiet s) ∧ (load E r i s).2 ≠ .ret 0) ∨
    (∃ q, (load E r i s).1 = { q with sw := (load E r i s).1.sw } ∧
      (loadDb E r i (quiet s)).2 = .ret 0 ∧
      (q, (load E r i s).2) = testDb E (loadDb E r i (quiet s)).1) := by
  unfold load
  by_cases hv : (loadDb E r i (quiet s)).2 = .ret 0
  · refine Or.inr ⟨_, restore_st _ _, hv, ?_⟩
    rw [restore_res, tested_zero E hv]
  · refine Or.inl ⟨_, restore_st _ _, ?_, ?_⟩
    · rw [restore_res, tested_other E hv]
    · rw [restore_res, tested_other E hv]; exact hv

/-- What the test run leaves behind. -/
theorem testDb_cases (E : Engine χ) (s : St χ) :
    ∃ x t s', runString E t s' = (({ (testDb E s).1 with eng := x }), (testDb E s).2) ∧
      s' = { s with eng := E.setReading s.eng true } := by
  unfold testDb
  dsimp only
  generalize hp : runString E (E.testInput s.eng) { s with eng := E.setReading s.eng true } = p
  rcases p with ⟨q, v⟩
  refine ⟨q.eng, E.testInput s.eng, _, ?_, rfl⟩
  rw [hp]
  cases v <;> rfl

end Verif.IPq
