import Verif.Lockstep.Calls2

/-!
# Lemmas: databases and input
-/

namespace Verif.Lockstep

open Spec

variable {n : Nat} {χ α β σ : Type} {E : Engine χ}

theorem Soft.mode {s s' : Nat → St χ} (hn : 0 < n) (h : Ready n s) (hk : ∀ p < n, Soft (s p) (s' p)) :
    (∀ p < n, (s' p).sh.set.mode = (s' 0).sh.set.mode) ∧
      ((s' 0).sh.set.mode = 0 ∨ (s' 0).sh.set.mode = 1) := by
  refine ⟨?_, ?_⟩
  · intro p hp; rw [(hk p hp).sh, (hk 0 hn).sh, h.agree p hp]
  · rw [(hk 0 hn).sh]; exact h.mode

/-- `SetDatabaseFileName`, `SetChemistryFileName`: the name is that of the root unless it is empty. -/
theorem fin_setName {s : Nat → St χ} (h : Ready n s) (hn : 0 < n) (t : Nat → List Char)
    (upd : List Char → St χ → St χ) (hu : ∀ x s, Soft s (upd x s))
    (huu : ∀ x s, upd x (upd x s) = upd x s) {s0 : Nat → St χ}
    (hs : ∀ p < n, Soft (s p) (s0 p)) :
    Fin' n (fun p => setName p (t p) upd) s0
      (fun a s' => (a = fun _ => if t 0 = [] then IRM.invalidArg else IRM.ok) ∧
        (∀ p < n, s' p = if t 0 = [] ∧ p ≠ 0 then s0 p else upd (t 0) (s0 p)))
      (fun s' => t 0 = [] ∧ ∀ p < n, Soft (s p) (s' p)) := by
  unfold setName
  refine Fin'.bind (Q := fun _ s1 => s1 = fun p => if p = 0 then upd (t 0) (s0 p) else s0 p) ?_ ?_
  · refine .ok (fun _ => ()) _ (Tog.loc ?_) rfl
    intro p hp
    by_cases h0 : p = 0
    · subst h0; rfl
    · simp only [M.onRoot, if_neg h0]; rfl
  rintro _ _ rfl
  have hsoft : ∀ p < n, Soft (s p) ((fun p => if p = 0 then upd (t 0) (s0 p) else s0 p) p) := by
    intro p hp
    by_cases h0 : p = 0
    · subst h0; exact (hs 0 hp).trans (hu _ _)
    · simp only [if_neg h0]; exact hs p hp
  refine Fin'.bind (Q := fun a s1 => (a = fun _ => ((t 0).length : Int)) ∧
    (fun p => if p = 0 then upd (t 0) (s0 p) else s0 p) = s1) ?_ ?_
  · exact Fin'.of_tog (Tog.bcastInt _) ⟨by simp, rfl⟩
  rintro _ _ ⟨rfl, rfl⟩
  by_cases he : t 0 = []
  · have hm := Soft.mode hn h hsoft
    refine Fin'.congr (s := fun p => if p = 0 then upd (t 0) (s0 p) else s0 p)
      (m := fun _ => returnHandler IRM.invalidArg) ?_ ?_
    · refine fin_returnHandler _ _ hm.1 hm.2 ⟨by simp [he], ?_⟩ ⟨he, hsoft⟩
      intro p hp
      by_cases h0 : p = 0
      · simp [h0]
      · simp [he, h0]
    · intro p hp
      simp only [he]; rfl
  · have hpos : ((t 0).length : Int) > 0 := by
      have := List.length_pos_iff.2 he
      omega
    refine Fin'.congr (s := fun p => if p = 0 then upd (t 0) (s0 p) else s0 p)
      (m := fun p => M.bind (M.bcastChars (t 0).length
        (if p = 0 then t p else List.replicate (t 0).length ' ')) (fun x =>
        M.bind (M.modify (upd x)) (fun _ => M.pure IRM.ok))) ?_ ?_
    · refine Fin'.bind (Q := fun a s1 => (a = fun _ => t 0) ∧
        (fun p => if p = 0 then upd (t 0) (s0 p) else s0 p) = s1) ?_ ?_
      · refine Fin'.of_tog (Tog.bcastChars _ (by simp)) ⟨by simp, rfl⟩
      rintro _ _ ⟨rfl, rfl⟩
      refine Fin'.modify_bind (Fin'.pure (a := fun _ => IRM.ok) ⟨by simp [he], ?_⟩)
      intro p hp
      by_cases h0 : p = 0
      · subst h0; simp [huu]
      · simp [he, h0]
    · intro p hp
      have hz : ((t 0).length : Int) ≠ 0 := by omega
      simp only [if_pos hpos, if_neg hz, Int.toNat_natCast]
      rfl

/-- The end of `RunFile` and `RunString`. -/
theorem fin_close {s s0 : Nat → St χ} (h : Ready n s) (hn : 0 < n) (r : Nat → Int)
    (hs : ∀ p < n, Soft (s p) (s0 p)) :
    Fin' n (fun p => M.bind (M.tryCatch (M.bind (handleErrors E p n (r p)) (fun _ => M.pure IRM.ok))
        (M.pure .fail)) (fun c => returnHandler c)) s0
      (fun a s' => (∀ p < n, Soft (s p) (s' p)) ∧ (a = fun _ => if ∃ p < n, r p ≠ 0 then .fail else .ok))
      (fun s' => (∃ p < n, r p ≠ 0) ∧ ∀ p < n, Soft (s p) (s' p)) := by
  refine Fin'.bind (Q := fun a s1 => (a = fun _ => if ∃ p < n, r p ≠ 0 then IRM.fail else .ok) ∧
    ∀ p < n, Soft (s p) (s1 p)) ?_ ?_
  · refine Fin'.handle (T := fun s1 => (∃ p < n, r p ≠ 0) ∧ ∀ p, Mild (s0 p) (s1 p)) ?_ ?_
    · refine Fin'.bind (fin_handleErrors hn r s0) ?_
      rintro _ s1 ⟨h1, h2⟩
      refine Fin'.pure (a := fun _ => IRM.ok) ⟨?_, fun p hp => (hs p hp).trans (h2 p).soft⟩
      have : ¬ ∃ p < n, r p ≠ 0 := fun ⟨p, hp, h3⟩ => h3 (h1 p hp)
      rw [if_neg this]
    · rintro s1 ⟨h1, h2⟩
      refine Fin'.pure (a := fun _ => IRM.fail) ⟨by rw [if_pos h1], fun p hp => (hs p hp).trans (h2 p).soft⟩
  · rintro _ s1 ⟨rfl, h1⟩
    have hm := Soft.mode hn h h1
    by_cases he : ∃ p < n, r p ≠ 0
    · exact fin_returnHandler _ _ hm.1 hm.2 ⟨h1, rfl⟩ ⟨he, h1⟩
    · simp only [if_neg he]
      exact .ok (fun _ => .ok) s1 (Tog.loc (fun _ _ => rfl)) ⟨h1, rfl⟩

/-- Statuses of the worker instances when a database is loaded. -/
def loadStatus (E : Engine χ) (s : Nat → St χ) (t : List Char) (p : Nat) : Int :=
  (E.load t (s p).chem).2.1

/-- `LoadDatabase` after the broadcast of the method. -/
def loadBody (E : Engine χ) (n p : Nat) (t : List Char) : M (St χ) IRM :=
  M.bind (M.tryCatch (M.bind (setName p t (fun x s => { s with database := x })) (fun r =>
      M.bind (handleErrors E p n r.toInt) (fun _ => M.bind M.get (fun s =>
      M.bind (M.modify (fun s' => { s' with chem := (E.load s.database s.chem).1 })) (fun _ =>
      M.bind (handleErrors E p n (E.load s.database s.chem).2.1) (fun _ => M.pure IRM.ok))))))
    (M.pure .fail)) (fun c => M.bind (M.allmin c.toInt) (fun g =>
    returnHandler (if g = 0 then .ok else .fail)))

theorem dispatch_load {p : Nat} (h0 : p ≠ 0) (s : St χ) :
    dispatch E n p .loadDatabase s = loadBody E n p [' '] s.clear :=
  tell_worker h0 _ _ _

theorem least_const (n : Nat) (c : Int) : least c (List.replicate n c) = c := by
  induction n with
  | zero => rfl
  | succ k ih => rw [List.replicate_succ, least, min_self]; exact ih

theorem fin_load {s : Nat → St χ} (h : Ready n s) (hn : 0 < n) (t : Nat → List Char) {s0 : Nat → St χ}
    (hs : ∀ p < n, Soft (s p) (s0 p)) :
    Fin' n (fun p => loadBody E n p (t p)) s0
      (fun a s' => (∀ p < n, Soft (s p) (s' p)) ∧
        (a = fun _ => if t 0 = [] ∨ ∃ p < n, loadStatus E s0 (t 0) p ≠ 0 then .fail else .ok))
      (fun s' => (t 0 = [] ∨ ∃ p < n, loadStatus E s0 (t 0) p ≠ 0) ∧ ∀ p < n, Soft (s p) (s' p)) := by
  unfold loadBody
  have hu : ∀ (x : List Char) (s : St χ), Soft s { s with database := x } :=
    fun x s => ⟨rfl, fun _ _ => rfl, fun _ _ => rfl, rfl, rfl, rfl, rfl⟩
  refine Fin'.bind (Q := fun a s1 => (a = fun _ => if t 0 = [] ∨ ∃ p < n, loadStatus E s0 (t 0) p ≠ 0
    then IRM.fail else .ok) ∧ ∀ p < n, Soft (s p) (s1 p)) ?_ ?_
  · refine Fin'.handle (T := fun s1 => (t 0 = [] ∨ ∃ p < n, loadStatus E s0 (t 0) p ≠ 0) ∧
      ∀ p < n, Soft (s p) (s1 p)) ?_ ?_
    · refine Fin'.bind ((fin_setName h hn t (fun x s => { s with database := x }) hu
        (fun _ _ => rfl) hs).mono (fun _ _ hh => hh) (fun s' hh => ⟨Or.inl hh.1, hh.2⟩)) ?_
      rintro _ s1 ⟨rfl, h1⟩
      have hs1 : ∀ p < n, Soft (s p) (s1 p) := by
        intro p hp
        rw [h1 p hp]
        split
        · exact hs p hp
        · exact (hs p hp).trans (hu _ _)
      refine Fin'.bind ((fin_handleErrors hn (fun _ => (if t 0 = [] then IRM.invalidArg else IRM.ok : IRM).toInt)
        s1).mono (fun _ _ hh => hh) (fun s' hh => ⟨Or.inl ?_, fun p hp => (hs1 p hp).trans (hh.2 p).soft⟩)) ?_
      · obtain ⟨p, _, hp⟩ := hh.1
        by_contra hne
        rw [if_neg hne] at hp
        exact hp rfl
      rintro _ s2 ⟨h2, h3⟩
      have hne : t 0 ≠ [] := by
        intro he
        have := h2 0 hn
        rw [if_pos he] at this
        revert this; decide
      refine Fin'.get_bind (Fin'.modify_bind ?_)
      have hst : ∀ p < n, (E.load (s2 p).database (s2 p).chem).2.1 = loadStatus E s0 (t 0) p := by
        intro p hp
        obtain ⟨e, o, c, h4⟩ := h3 p
        rw [h4, h1 p hp]
        simp [hne, loadStatus]
      refine Fin'.bind ((fin_handleErrors hn (fun p => (E.load (s2 p).database (s2 p).chem).2.1) _).mono
        (fun _ _ hh => hh) (fun s' hh => ⟨Or.inr ?_, fun p hp => ?_⟩)) ?_
      · obtain ⟨p, hp, h5⟩ := hh.1
        exact ⟨p, hp, by rw [← hst p hp]; exact h5⟩
      · refine ((hs1 p hp).trans (h3 p).soft).trans (Soft.trans ?_ (hh.2 p).soft)
        exact ⟨rfl, fun _ _ => rfl, fun _ _ => rfl, rfl, rfl, rfl, rfl⟩
      rintro _ s3 ⟨h5, h6⟩
      refine Fin'.pure (a := fun _ => IRM.ok) ⟨?_, ?_⟩
      · have : ¬ (t 0 = [] ∨ ∃ p < n, loadStatus E s0 (t 0) p ≠ 0) := by
          rintro (h7 | ⟨p, hp, h7⟩)
          · exact hne h7
          · exact h7 (by rw [← hst p hp]; exact h5 p hp)
        rw [if_neg this]
      · intro p hp
        refine ((hs1 p hp).trans (h3 p).soft).trans (Soft.trans ?_ (h6 p).soft)
        exact ⟨rfl, fun _ _ => rfl, fun _ _ => rfl, rfl, rfl, rfl, rfl⟩
    · rintro s1 ⟨h1, h2⟩
      exact Fin'.pure (a := fun _ => IRM.fail) ⟨by rw [if_pos h1], h2⟩
  · rintro _ s1 ⟨rfl, h1⟩
    have hm := Soft.mode hn h h1
    refine Fin'.bind (Q := fun a s2 => (a = fun _ => (if t 0 = [] ∨ ∃ p < n, loadStatus E s0 (t 0) p ≠ 0
      then IRM.fail else .ok : IRM).toInt) ∧ s1 = s2) ?_ ?_
    · refine Fin'.of_tog (Tog.allmin _) ⟨?_, rfl⟩
      funext p
      simp only [List.map_const', List.length_range]
      exact least_const n _
    · rintro _ _ ⟨rfl, rfl⟩
      by_cases he : t 0 = [] ∨ ∃ p < n, loadStatus E s0 (t 0) p ≠ 0
      · simp only [if_pos he]
        exact fin_returnHandler _ _ hm.1 hm.2 ⟨h1, rfl⟩ ⟨he, h1⟩
      · simp only [if_neg he]
        exact .ok (fun _ => .ok) s1 (Tog.loc (fun _ _ => rfl)) ⟨h1, rfl⟩

theorem callOk_loadDatabase {s : Nat → St χ} (h : Ready n s) (hn : 0 < n) (t : List Char) :
    CallOk E n (.loadDatabase t) s := by
  refine CallOk.soft h hn .loadDatabase nofun (fun p => loadBody E n p (if p = 0 then t else [' ']))
    (s1 := fun p => (s p).clear) ⟨_, rfl, rfl⟩ (fun p _ h0 => by rw [dispatch_load h0, if_neg h0])
    (fun _ => rfl) nofun ?_
  exact (fin_load h hn _ (fun p _ => Soft.clear _)).mono (fun _ _ k => k.1) (fun _ k => k.2)

/-- Status of the worker instance in `RunFile` and `RunString`. -/
theorem runThree_worker (run : Nat → χ → χ × Int) (w i u : Bool) (c : χ) :
    (runThree run w i u c).2.1 = if w = true then (run 0 c).2 else 0 := by
  cases w <;> rfl

/-- 1 for true, as sent by the root. -/
def bit (t : Bool) : Int := if t = true then 1 else 0

theorem bit_back (t : Bool) : decide (bit t ≠ 0) = t := by cases t <;> rfl

theorem soft_chem (s : St χ) (c : χ) : Soft s { s with chem := c } :=
  ⟨rfl, fun _ _ => rfl, fun _ _ => rfl, rfl, rfl, rfl, rfl⟩

theorem soft_count (s : St χ) (c : Int) : Soft s { s with errorCount := c } :=
  ⟨rfl, fun _ _ => rfl, fun _ _ => rfl, rfl, rfl, rfl, rfl⟩

/-- `RunFile` after the broadcast of the method. -/
def runFileBody (E : Engine χ) (n p : Nat) (w i u : Bool) (t : List Char) : M (St χ) IRM :=
  M.bind (M.modify (fun s => { s with errorCount := 0 })) (fun _ => M.bind clearErrs (fun _ =>
  M.bind (setName p t (fun x s => { s with chemistryName := x })) (fun _ => M.bind M.get (fun s =>
  M.bind (M.bcastInts 4 [if p = 0 ∧ w = true then 1 else 0, if p = 0 ∧ i = true then 1 else 0,
    if p = 0 ∧ u = true then 1 else 0, if p = 0 then s.errorCount else 0]) (fun fl =>
  match fl with
  | [x, y, z, e] =>
    if e > 0 then M.pure .fail
    else M.bind M.get (fun s => M.bind (M.modify (fun s' => { s' with
        chem := (runThree (fun n => E.runFile n s.chemistryName) (decide (x ≠ 0)) (decide (y ≠ 0))
          (decide (z ≠ 0)) s.chem).1 })) (fun _ =>
      M.bind (M.tryCatch (M.bind (handleErrors E p n (runThree (fun n => E.runFile n s.chemistryName)
        (decide (x ≠ 0)) (decide (y ≠ 0)) (decide (z ≠ 0)) s.chem).2.1) (fun _ => M.pure IRM.ok))
        (M.pure .fail)) (fun c => returnHandler c)))
  | _ => M.ub)))))

theorem dispatch_runFile {p : Nat} (h0 : p ≠ 0) (s : St χ) :
    dispatch E n p .runFile s = runFileBody E n p false false false [' '] s.clear :=
  tell_worker h0 _ _ _

theorem fin_runFile {s : Nat → St χ} (h : Ready n s) (hn : 0 < n) (w i u : Nat → Bool)
    (t : Nat → List Char) {s0 : Nat → St χ} (hs : ∀ p < n, Soft (s p) (s0 p)) :
    Fin' n (fun p => runFileBody E n p (w p) (i p) (u p) (t p)) s0
      (fun a s' => (∀ p < n, Soft (s p) (s' p)) ∧ (t 0 ≠ [] → a = fun _ =>
        if w 0 = true ∧ ∃ p < n, (E.runFile 0 (t 0) (s0 p).chem).2 ≠ 0 then .fail else .ok))
      (fun s' => (t 0 = [] ∨ w 0 = true ∧ ∃ p < n, (E.runFile 0 (t 0) (s0 p).chem).2 ≠ 0) ∧
        ∀ p < n, Soft (s p) (s' p)) := by
  unfold runFileBody
  have hu : ∀ (x : List Char) (s : St χ), Soft s { s with chemistryName := x } :=
    fun x s => ⟨rfl, fun _ _ => rfl, fun _ _ => rfl, rfl, rfl, rfl, rfl⟩
  refine Fin'.modify_bind (Fin'.modify_bind ?_)
  have hs0 : ∀ p < n, Soft (s p) ({ s0 p with errorCount := 0, errs := [] } : St χ) :=
    fun p hp => (hs p hp).trans ⟨rfl, fun _ _ => rfl, fun _ _ => rfl, rfl, rfl, rfl, rfl⟩
  refine Fin'.bind ((fin_setName h hn t (fun x s => { s with chemistryName := x }) hu
    (fun _ _ => rfl) hs0).mono (fun _ _ hh => hh) (fun s' hh => ⟨Or.inl hh.1, hh.2⟩)) ?_
  rintro _ s1 ⟨rfl, h1⟩
  have hs1 : ∀ p < n, Soft (s p) (s1 p) := by
    intro p hp
    rw [h1 p hp]
    split
    · exact hs0 p hp
    · exact (hs0 p hp).trans (hu _ _)
  have hec : (s1 0).errorCount = 0 := by
    rw [h1 0 hn]; simp
  refine Fin'.get_bind (Fin'.bind (Q := fun a s2 => (a = fun _ => [bit (w 0), bit (i 0), bit (u 0), 0]) ∧
    s1 = s2) ?_ ?_)
  · refine Fin'.of_tog (Tog.bcastInts _ rfl) ⟨?_, rfl⟩
    simp [bit, hec]
  rintro _ _ ⟨rfl, rfl⟩
  show Fin' n (fun p => (if (0 : Int) > 0 then M.pure .fail
    else M.bind M.get (fun s => M.bind (M.modify (fun s' => { s' with
        chem := (runThree (fun n => E.runFile n s.chemistryName) (decide (bit (w 0) ≠ 0))
          (decide (bit (i 0) ≠ 0)) (decide (bit (u 0) ≠ 0)) s.chem).1 })) (fun _ =>
      M.bind (M.tryCatch (M.bind (handleErrors E p n (runThree (fun n => E.runFile n s.chemistryName)
        (decide (bit (w 0) ≠ 0)) (decide (bit (i 0) ≠ 0)) (decide (bit (u 0) ≠ 0)) s.chem).2.1)
          (fun _ => M.pure IRM.ok))
        (M.pure .fail)) (fun c => returnHandler c))) : M (St χ) IRM)) s1 _ _
  simp only [bit_back, if_neg (show ¬ (0 : Int) > 0 by decide)]
  refine Fin'.get_bind (Fin'.modify_bind ?_)
  simp only [runThree_worker]
  have key : t 0 ≠ [] → ((∃ p < n, (if w 0 = true then (E.runFile 0 (s1 p).chemistryName (s1 p).chem).2
      else 0) ≠ 0) ↔ (w 0 = true ∧ ∃ p < n, (E.runFile 0 (t 0) (s0 p).chem).2 ≠ 0)) := by
    intro hne
    have e : ∀ p < n, (s1 p).chemistryName = t 0 ∧ (s1 p).chem = (s0 p).chem := by
      intro p hp
      rw [h1 p hp]
      simp [hne]
    by_cases hw : w 0 = true
    · simp only [hw, if_true, true_and]
      constructor
      · rintro ⟨p, hp, h3⟩
        rw [(e p hp).1, (e p hp).2] at h3
        exact ⟨p, hp, h3⟩
      · rintro ⟨p, hp, h3⟩
        refine ⟨p, hp, ?_⟩
        rw [(e p hp).1, (e p hp).2]
        exact h3
    · simp [hw]
  refine (fin_close h hn _ (fun p hp => (hs1 p hp).trans (soft_chem _ _))).mono ?_ ?_
  · rintro a s' ⟨k1, k2⟩
    refine ⟨k1, fun hne => ?_⟩
    rw [k2]
    funext _
    exact if_congr (key hne) rfl rfl
  · rintro s' ⟨k1, k2⟩
    refine ⟨?_, k2⟩
    by_cases hne : t 0 = []
    · exact Or.inl hne
    · exact Or.inr ((key hne).1 k1)

theorem callOk_runFile {s : Nat → St χ} (h : Ready n s) (hn : 0 < n) (w i u : Bool) (t : List Char) :
    CallOk E n (.runFile w i u t) s := by
  refine CallOk.soft h hn .runFile nofun (fun p => runFileBody E n p (if p = 0 then w else false)
    (if p = 0 then i else false) (if p = 0 then u else false) (if p = 0 then t else [' ']))
    (s1 := fun p => (s p).clear) ⟨_, rfl, rfl⟩ (fun p _ h0 => by simp only [dispatch_runFile h0, if_neg h0])
    (fun _ => rfl) nofun ?_
  exact (fin_runFile h hn _ _ _ _ (fun p _ => Soft.clear _)).mono (fun _ _ k => k.1) (fun _ k => k.2)

/-- `RunString` after the broadcast of the method. -/
def runStringBody (E : Engine χ) (n p : Nat) (w i u : Bool) (t : List Char) : M (St χ) IRM :=
  M.bind (M.modify (fun s => { s with errorCount := 0 })) (fun _ => M.bind M.get (fun s =>
  M.bind (M.bcastInts 5 [if p = 0 ∧ w = true then 1 else 0, if p = 0 ∧ i = true then 1 else 0,
    if p = 0 ∧ u = true then 1 else 0, if p = 0 then (t.length : Int) else 0,
    if p = 0 then s.errorCount else 0]) (fun fl =>
  match fl with
  | [x, y, z, k, e] =>
    M.bind (M.bcastChars k.toNat (if p = 0 then t else List.replicate k.toNat ' ')) (fun input =>
    if e > 0 then M.pure .fail
    else M.bind M.get (fun s => M.bind (M.modify (fun s' => { s' with
        chem := (runThree (fun n => E.runString n input) (decide (x ≠ 0)) (decide (y ≠ 0))
          (decide (z ≠ 0)) s.chem).1 })) (fun _ =>
      M.bind (M.tryCatch (M.bind (handleErrors E p n (runThree (fun n => E.runString n input)
        (decide (x ≠ 0)) (decide (y ≠ 0)) (decide (z ≠ 0)) s.chem).2.1) (fun _ => M.pure IRM.ok))
        (M.pure .fail)) (fun c => returnHandler c))))
  | _ => M.ub)))

theorem dispatch_runString {p : Nat} (h0 : p ≠ 0) (s : St χ) :
    dispatch E n p .runString s = runStringBody E n p false false false [' '] s.clear :=
  tell_worker h0 _ _ _

theorem fin_runString {s : Nat → St χ} (h : Ready n s) (hn : 0 < n) (w i u : Nat → Bool)
    (t : Nat → List Char) {s0 : Nat → St χ} (hs : ∀ p < n, Soft (s p) (s0 p)) :
    Fin' n (fun p => runStringBody E n p (w p) (i p) (u p) (t p)) s0
      (fun a s' => (∀ p < n, Soft (s p) (s' p)) ∧ (a = fun _ =>
        if w 0 = true ∧ ∃ p < n, (E.runString 0 (t 0) (s0 p).chem).2 ≠ 0 then .fail else .ok))
      (fun s' => (w 0 = true ∧ ∃ p < n, (E.runString 0 (t 0) (s0 p).chem).2 ≠ 0) ∧
        ∀ p < n, Soft (s p) (s' p)) := by
  unfold runStringBody
  refine Fin'.modify_bind (Fin'.get_bind (Fin'.bind (Q := fun a s2 =>
    (a = fun _ => [bit (w 0), bit (i 0), bit (u 0), ((t 0).length : Int), 0]) ∧
    (fun p => ({ s0 p with errorCount := 0 } : St χ)) = s2) ?_ ?_))
  · refine Fin'.of_tog (Tog.bcastInts _ rfl) ⟨?_, rfl⟩
    simp [bit]
  rintro _ _ ⟨rfl, rfl⟩
  refine Fin'.bind (f := fun p input => (if (0 : Int) > 0 then M.pure .fail
    else M.bind M.get (fun s => M.bind (M.modify (fun s' => { s' with
        chem := (runThree (fun n => E.runString n input) (decide (bit (w 0) ≠ 0))
          (decide (bit (i 0) ≠ 0)) (decide (bit (u 0) ≠ 0)) s.chem).1 })) (fun _ =>
      M.bind (M.tryCatch (M.bind (handleErrors E p n (runThree (fun n => E.runString n input)
        (decide (bit (w 0) ≠ 0)) (decide (bit (i 0) ≠ 0)) (decide (bit (u 0) ≠ 0)) s.chem).2.1)
          (fun _ => M.pure IRM.ok))
        (M.pure .fail)) (fun c => returnHandler c))) : M (St χ) IRM))
    (Q := fun a s2 => (a = fun _ => t 0) ∧ (fun p => ({ s0 p with errorCount := 0 } : St χ)) = s2) ?_ ?_
  · refine Fin'.of_tog (Tog.bcastChars _ (by simp)) ⟨by simp, rfl⟩
  rintro _ _ ⟨rfl, rfl⟩
  simp only [bit_back, if_neg (show ¬ (0 : Int) > 0 by decide)]
  refine Fin'.get_bind (Fin'.modify_bind ?_)
  simp only [runThree_worker]
  have key : ((∃ p < n, (if w 0 = true then (E.runString 0 (t 0) (s0 p).chem).2
      else 0) ≠ 0) ↔ (w 0 = true ∧ ∃ p < n, (E.runString 0 (t 0) (s0 p).chem).2 ≠ 0)) := by
    by_cases hw : w 0 = true
    · simp [hw]
    · simp [hw]
  refine (fin_close (s0 := fun p => ({ s0 p with
      chem := (runThree (fun n => E.runString n (t 0)) (w 0) (i 0) (u 0) (s0 p).chem).1
      errorCount := 0 } : St χ)) h hn _ (fun p hp => (hs p hp).trans
    ⟨rfl, fun _ _ => rfl, fun _ _ => rfl, rfl, rfl, rfl, rfl⟩)).mono ?_ ?_
  · rintro a s' ⟨k1, k2⟩
    refine ⟨k1, ?_⟩
    rw [k2]
    funext _
    exact if_congr key rfl rfl
  · rintro s' ⟨k1, k2⟩
    exact ⟨key.1 k1, k2⟩

theorem callOk_runString {s : Nat → St χ} (h : Ready n s) (hn : 0 < n) (w i u : Bool) (t : List Char) :
    CallOk E n (.runString w i u t) s := by
  refine CallOk.soft h hn .runString nofun (fun p => runStringBody E n p (if p = 0 then w else false)
    (if p = 0 then i else false) (if p = 0 then u else false) (if p = 0 then t else [' ']))
    (s1 := fun p => (s p).clear) ⟨_, rfl, rfl⟩ (fun p _ h0 => by simp only [dispatch_runString h0, if_neg h0])
    (fun _ => rfl) nofun ?_
  exact (fin_runString h hn _ _ _ _ (fun p _ => Soft.clear _)).mono (fun _ _ k => k.1) (fun _ k => k.2)

end Verif.Lockstep
