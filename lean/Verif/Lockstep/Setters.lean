import Verif.Lockstep.Served
import Verif.Lockstep.Spec

/-!
# Lemmas: the calls that only change settings
-/

namespace Verif.Lockstep

open Spec

variable {n : Nat} {χ : Type} {E : Engine χ}

/-- The method is broadcast and the functions finish together. -/
theorem Served.tell {s1 s' : Nat → St χ} {ws : Nat → Outcome χ} {r : Nat → Res IRM} (m : Method)
    (hm : m ≠ .workerBreak) (G : Nat → Unit → M (St χ) IRM)
    (hw : ∀ p < n, p ≠ 0 → dispatch E n p m (ws p).2 = G p () (s1 p))
    (ha : ∀ p < n, (ws p).1.Alive) (ht : Tog n (fun p => G p ()) s1 r s') :
    Served E n (M.bind (tell 0 m) (G 0) (s1 0)) ws (r 0, s' 0) (fun p => (r p, s' p)) := by
  refine Served.round (β := Outcome χ) m hm _ rfl (fun p => G p () (s1 p)) .ret (fun _ b => b)
    (R := fun p => (r p, s' p)) ?_ ?_ ha ht (Served.ret _)
  · show G 0 () (s1 0) = _
    exact (Prog.bind_ret _).symm
  · intro p hp h0
    rw [hw p hp h0]
    exact (Prog.bind_ret _).symm

theorem alive_ok {α : Type} (a : α) : (Res.ok a).Alive := ⟨nofun, nofun⟩
theorem alive_threw {α : Type} : (Res.threw : Res α).Alive := ⟨nofun, nofun⟩

/-- What does not change except in calls that move cells or save states. -/
structure Kin (g : Settings) (ck : Bool) (s s' : St χ) : Prop where
  sh : s'.sh = { s.sh with set := g, check := ck }
  rootArr : ∀ a, Kept a → s'.rootArr a = s.rootArr a
  workArr : ∀ a, Kept a → s'.workArr a = s.workArr a
  maskRoot : s'.maskRoot = s.maskRoot
  maskWork : s'.maskWork = s.maskWork
  saved : s'.saved.map Prod.fst = s.saved.map Prod.fst

theorem ready_kin {s s' : Nat → St χ} (h : Ready n s) (hn : 0 < n) {g : Settings} {ck : Bool}
    (hk : ∀ p < n, Kin g ck (s p) (s' p)) (hm : g.mode = 0 ∨ g.mode = 1)
    (ho : g.partUZ = true → (s 0).sh.nxyz ≤ (s' 0).oldSatRoot.length) : Ready n s' where
  agree := fun p hp => by rw [(hk p hp).sh, (hk 0 hn).sh, h.agree p hp]
  divides := by rw [(hk 0 hn).sh]; exact h.divides
  back := by rw [(hk 0 hn).sh]; exact h.back
  arrays := by
    intro a ha
    rw [(hk 0 hn).sh, (hk 0 hn).rootArr a ha]; exact h.arrays a ha
  mask := by rw [(hk 0 hn).sh, (hk 0 hn).maskRoot]; exact h.mask
  keys := fun p hp => by rw [(hk p hp).saved, (hk 0 hn).sh]; exact h.keys p hp
  savedDivides := by rw [(hk 0 hn).sh]; exact h.savedDivides
  mode := by rw [(hk 0 hn).sh]; exact hm
  oldSat := by rw [(hk 0 hn).sh]; exact ho

/-- What a call leaves as it was and what it changes, for all processes. -/
structure Post (n : Nat) (c : Call) (s s' : Nat → St χ) : Prop where
  set : (s' 0).sh.set = Spec.apply c (s 0).sh.set
  nxyz : (s' 0).sh.nxyz = (s 0).sh.nxyz
  ncomp : (s' 0).sh.ncomp = (s 0).sh.ncomp
  back : (s' 0).sh.back = (s 0).sh.back
  arrays : ∀ a, Kept a → (s' 0).rootArr a = Spec.array (s 0).sh.nxyz a [c] ((s 0).rootArr a)
  pieces : (∀ i, c ≠ .stateApply i) → Pieces n s → Pieces n s'

theorem pieces_kin {s s' : Nat → St χ} (h : Pieces n s) {g : Settings} {ck : Bool}
    (hk : ∀ p < n, Kin g ck (s p) (s' p)) : Pieces n s' := by
  intro p hp
  have h0 : 0 < n := by omega
  obtain ⟨h1, h2⟩ := h p hp
  constructor
  · intro a ha
    rw [(hk 0 h0).sh, (hk 0 h0).rootArr a ha, (hk p hp).workArr a ha]
    exact h1 a ha
  · rw [(hk 0 h0).sh, (hk 0 h0).maskRoot, (hk p hp).maskWork]
    exact h2

theorem Post.kin {s s' : Nat → St χ} {c : Call} (hn : 0 < n) {g : Settings} {ck : Bool}
    (hk : ∀ p < n, Kin g ck (s p) (s' p)) (hg : g = Spec.apply c (s 0).sh.set)
    (hc : ∀ a v, c ≠ .setArr a v) : Post n c s s' where
  set := by rw [(hk 0 hn).sh]; exact hg
  nxyz := by rw [(hk 0 hn).sh]
  ncomp := by rw [(hk 0 hn).sh]
  back := by rw [(hk 0 hn).sh]
  arrays := by
    intro a ha
    rw [(hk 0 hn).rootArr a ha]
    cases c <;> first | rfl | exact absurd rfl (hc _ _)
  pieces := fun _ hp => pieces_kin hp hk

/-- The call is served from all states that are ready. -/
def CallOk (E : Engine χ) (n : Nat) (c : Call) (s : Nat → St χ) : Prop :=
  ∀ r0 : Nat → Res IRM, (∀ p < n, (r0 p).Alive) → ∃ (r : Nat → Res IRM) (s' : Nat → St χ),
    Served E n (perform E n c (s 0)) (fun p => (r0 p, s p)) (r 0, s' 0) (fun p => (r p, s' p)) ∧
    (∀ p < n, (r p).Alive) ∧ Ready n s' ∧ Post n c s s'

/-- Data with the error string cleared. -/
def St.clear (s : St χ) : St χ := { s with errs := [] }

/-- A new set of settings. -/
def St.withSet (s : St χ) (g : Settings) : St χ := { s with sh := { s.sh with set := g } }

theorem Kin.withSet (s : St χ) (g : Settings) : Kin g s.sh.check s (s.clear.withSet g) :=
  ⟨rfl, fun _ _ => rfl, fun _ _ => rfl, rfl, rfl, rfl⟩

theorem Kin.self (s : St χ) : Kin s.sh.set s.sh.check s s :=
  ⟨rfl, fun _ _ => rfl, fun _ _ => rfl, rfl, rfl, rfl⟩

/-- Calls that return on the root without a word to the workers. -/
theorem CallOk.early {s : Nat → St χ} (h : Ready n s) (hn : 0 < n) {c : Call} {x : Res IRM}
    (hx : x.Alive) {s0 : St χ} (hk : Kin (s 0).sh.set (s 0).sh.check (s 0) s0)
    (hold : s0.oldSatRoot = (s 0).oldSatRoot)
    (hp : perform E n c (s 0) = .ret (x, s0)) (hg : (s 0).sh.set = Spec.apply c (s 0).sh.set)
    (hc : ∀ a v, c = .setArr a v → v.length < (s 0).sh.nxyz) : CallOk E n c s := by
  intro r0 ha
  let s' : Nat → St χ := fun p => if p = 0 then s0 else s p
  have hk' : ∀ p < n, Kin (s 0).sh.set (s 0).sh.check (s p) (s' p) := by
    intro p hp
    by_cases hp0 : p = 0
    · subst hp0; exact hk
    · have := Kin.self (s p)
      rw [h.agree p hp] at this
      simpa [s', hp0] using this
  refine ⟨fun p => if p = 0 then x else r0 p, s', ?_, ?_, ?_, ?_⟩
  · rw [hp]
    intro γ f rest
    refine ⟨0, ?_⟩
    have : cfg n ((Prog.ret (x, s0)).bind f) (fun p => (r0 p, s p)) rest =
        cfg n (f (if 0 = 0 then x else r0 0, s' 0))
          (fun p => (if p = 0 then x else r0 p, s' p)) rest := by
      unfold cfg
      congr 1
      funext p
      by_cases hp0 : p = 0 <;> simp [hp0, s', Prog.bind]
    rw [this]
    exact .nil _
  · intro p hp
    by_cases hp0 : p = 0
    · simpa [hp0] using hx
    · simpa [hp0] using ha p hp
  · refine ready_kin h hn hk' h.mode ?_
    intro hu
    show _ ≤ s0.oldSatRoot.length
    rw [hold]
    exact h.oldSat hu
  · refine ⟨?_, ?_, ?_, ?_, ?_, fun _ hp => pieces_kin hp hk'⟩
    · rw [(hk' 0 hn).sh]; exact hg
    · rw [(hk' 0 hn).sh]
    · rw [(hk' 0 hn).sh]
    · rw [(hk' 0 hn).sh]
    · intro a hka
      rw [(hk' 0 hn).rootArr a hka]
      cases c with
      | setArr b v =>
        have := hc b v rfl
        simp only [Spec.array]
        rw [if_neg (by rintro ⟨_, h2⟩; omega)]
      | _ => rfl

/-- Calls that only change settings. -/
theorem CallOk.settings {s : Nat → St χ} (h : Ready n s) (hn : 0 < n) {c : Call} (m : Method)
    (hm : m ≠ .workerBreak) (G : Nat → Unit → M (St χ) IRM)
    (hp : perform E n c (s 0) = M.bind (Lockstep.tell 0 m) (G 0) (s 0).clear)
    (hw : ∀ p < n, p ≠ 0 → dispatch E n p m (s p) = G p () (s p).clear)
    {r : Nat → Res IRM}
    (ht : Tog n (fun p => G p ()) (fun p => (s p).clear) r
      (fun p => (s p).clear.withSet (Spec.apply c (s 0).sh.set)))
    (hr : ∀ p < n, (r p).Alive) (hc : ∀ a v, c ≠ .setArr a v)
    (hmode : (Spec.apply c (s 0).sh.set).mode = 0 ∨ (Spec.apply c (s 0).sh.set).mode = 1)
    (ho : (Spec.apply c (s 0).sh.set).partUZ = (s 0).sh.set.partUZ) : CallOk E n c s := by
  intro r0 ha
  have hk : ∀ p < n, Kin (Spec.apply c (s 0).sh.set) (s 0).sh.check (s p)
      ((s p).clear.withSet (Spec.apply c (s 0).sh.set)) := by
    intro p hp
    have := Kin.withSet (s p) (Spec.apply c (s 0).sh.set)
    rw [h.agree p hp] at this
    exact this
  refine ⟨r, _, ?_, hr, ready_kin h hn hk hmode (fun hu => h.oldSat (ho ▸ hu)), Post.kin hn hk rfl hc⟩
  rw [hp]
  exact Served.tell m hm G hw ha ht

theorem returnHandler_ret {s : St χ} (c : IRM) (h : s.sh.set.mode = 0 ∨ s.sh.set.mode = 1) :
    ∃ r : Res IRM, returnHandler c s = .ret (r, s) ∧ r.Alive := by
  unfold returnHandler
  by_cases hc : c = .ok
  · subst hc
    exact ⟨.ok .ok, rfl, alive_ok _⟩
  · rw [if_neg hc]
    rcases h with h | h
    · refine ⟨.ok c, ?_, alive_ok _⟩
      show (if s.sh.set.mode = 1 then M.throw else if s.sh.set.mode = 2 then M.exit else pure c) s = _
      rw [h]; rfl
    · refine ⟨.threw, ?_, alive_threw⟩
      show (if s.sh.set.mode = 1 then M.throw else if s.sh.set.mode = 2 then M.exit else pure c) s = _
      rw [h]; rfl

theorem callOk_setNum {s : Nat → St χ} (h : Ready n s) (hn : 0 < n) (k : Num) (t : ℚ) :
    CallOk E n (.setNum k t) s := by
  by_cases he : (s 0).sh.set.nums k = t
  · refine CallOk.early h hn (x := .ok .ok) (alive_ok _) (s0 := (s 0).clear)
      ⟨rfl, fun _ _ => rfl, fun _ _ => rfl, rfl, rfl, rfl⟩ rfl ?_ ?_ (by intro a v hc; cases hc)
    · show (if 0 = 0 ∧ (s 0).sh.set.nums k = t then M.pure IRM.ok else _ : M (St χ) IRM) (s 0).clear = _
      rw [if_pos ⟨rfl, he⟩]; rfl
    · simp only [Spec.apply]
      have : (fun j => if j = k then t else (s 0).sh.set.nums j) = (s 0).sh.set.nums := by
        funext j
        by_cases hj : j = k
        · subst hj; simp [he]
        · simp [hj]
      rw [this]
  · refine CallOk.settings h hn (.setNum k) nofun
      (fun p _ => M.bind (M.bcastDbl (if p = 0 then t else (s p).sh.set.nums k))
        (fun x => M.bind (M.modify (fun s => { s with sh := { s.sh with set :=
          { s.sh.set with nums := Function.update s.sh.set.nums k x } } })) (fun _ => M.pure .ok)))
      ?_ ?_ (r := fun _ => .ok .ok) ?_ (fun _ _ => alive_ok _) (by intro a v hc; cases hc) h.mode rfl
    · show (if 0 = 0 ∧ (s 0).sh.set.nums k = t then M.pure IRM.ok else _ : M (St χ) IRM) (s 0).clear = _
      rw [if_neg (fun hh => he hh.2)]; rfl
    · intro p hp h0
      show (if p = 0 ∧ (s p).sh.set.nums k = 0 then M.pure IRM.ok else _ : M (St χ) IRM) (s p).clear = _
      rw [if_neg (fun hh => h0 hh.1)]
      simp only [Lockstep.tell, M.onRoot, if_neg h0]
      rfl
    · refine Tog.bind (Tog.bcastDbl _) (Tog.loc ?_)
      intro p hp
      have key : ({ (s 0).sh.set with nums := Function.update (s 0).sh.set.nums k t } : Settings) =
          Spec.apply (.setNum k t) (s 0).sh.set := by
        simp only [Spec.apply]
        congr 1
        funext j
        simp [Function.update_apply]
      show Prog.ret (Res.ok IRM.ok, (s p).clear.withSet { (s p).sh.set with
        nums := Function.update (s p).sh.set.nums k (if 0 = 0 then t else _) }) = _
      rw [if_pos rfl, h.agree p hp, key]

theorem callOk_setFlag {s : Nat → St χ} (h : Ready n s) (hn : 0 < n) (k : Flag) (t : Bool) :
    CallOk E n (.setFlag k t) s := by
  by_cases he : k ≠ .componentH2O ∧ (s 0).sh.set.flags k = t
  · refine CallOk.early h hn (x := .ok .ok) (alive_ok _) (s0 := (s 0).clear)
      ⟨rfl, fun _ _ => rfl, fun _ _ => rfl, rfl, rfl, rfl⟩ rfl ?_ ?_ (by intro a v hc; cases hc)
    · show (if 0 = 0 ∧ k ≠ .componentH2O ∧ (s 0).sh.set.flags k = t then M.pure IRM.ok else _ :
        M (St χ) IRM) (s 0).clear = _
      rw [if_pos ⟨rfl, he⟩]; rfl
    · simp only [Spec.apply]
      have : (fun j => if j = k then t else (s 0).sh.set.flags j) = (s 0).sh.set.flags := by
        funext j
        by_cases hj : j = k
        · subst hj; simp [he.2]
        · simp [hj]
      rw [this]
  · refine CallOk.settings h hn (.setFlag k) nofun
      (fun p _ => M.bind (M.bcastInt (if (if p = 0 then t else (s p).sh.set.flags k) = true then 1 else 0))
        (fun x => M.bind (M.modify (fun s => { s with sh := { s.sh with set :=
          { s.sh.set with flags := Function.update s.sh.set.flags k (decide (x ≠ 0)) } } }))
          (fun _ => M.pure .ok)))
      ?_ ?_ (r := fun _ => .ok .ok) ?_ (fun _ _ => alive_ok _) (by intro a v hc; cases hc) h.mode rfl
    · show (if 0 = 0 ∧ k ≠ .componentH2O ∧ (s 0).sh.set.flags k = t then M.pure IRM.ok else _ :
        M (St χ) IRM) (s 0).clear = _
      rw [if_neg (fun hh => he hh.2)]; rfl
    · intro p hp h0
      show (if p = 0 ∧ k ≠ .componentH2O ∧ (s p).sh.set.flags k = false then M.pure IRM.ok else _ :
        M (St χ) IRM) (s p).clear = _
      rw [if_neg (fun hh => h0 hh.1)]
      simp only [Lockstep.tell, M.onRoot, if_neg h0]
      rfl
    · refine Tog.bind (Tog.bcastInt _) (Tog.loc ?_)
      intro p hp
      have key : ({ (s 0).sh.set with flags := Function.update (s 0).sh.set.flags k t } : Settings) =
          Spec.apply (.setFlag k t) (s 0).sh.set := by
        simp only [Spec.apply]
        congr 1
        funext j
        simp [Function.update_apply]
      show Prog.ret (Res.ok IRM.ok, (s p).clear.withSet { (s p).sh.set with
        flags := Function.update (s p).sh.set.flags k
          (decide ((if (if 0 = 0 then t else _) = true then (1 : Int) else 0) ≠ 0)) }) = _
      have e : decide ((if (if 0 = 0 then t else (s 0).sh.set.flags k) = true then (1 : Int) else 0) ≠ 0) = t := by
        cases t <;> simp
      rw [e, h.agree p hp, key]

theorem unitOk_iff (k : UKind) (u : Int) :
    unitOk k u = true ↔ (if k = .solution then 1 ≤ u ∧ u ≤ 3 else 0 ≤ u ∧ u ≤ 2) := by
  cases k <;> simp [unitOk] <;> omega

theorem callOk_setUnits {s : Nat → St χ} (h : Ready n s) (hn : 0 < n) (k : UKind) (u : Int) :
    CallOk E n (.setUnits k u) s := by
  have hsame : (s 0).sh.set.units k = u → Spec.apply (.setUnits k u) (s 0).sh.set = (s 0).sh.set := by
    intro he
    have : (fun j => if j = k then u else (s 0).sh.set.units j) = (s 0).sh.set.units := by
      funext j
      by_cases hj : j = k
      · subst hj; simp [he]
      · simp [hj]
    simp only [Spec.apply]
    split <;> simp [this]
  by_cases he : (s 0).sh.set.units k = u
  · refine CallOk.early h hn (x := .ok .ok) (alive_ok _) (s0 := (s 0).clear)
      ⟨rfl, fun _ _ => rfl, fun _ _ => rfl, rfl, rfl, rfl⟩ rfl ?_ (hsame he).symm
      (by intro a v hc; cases hc)
    show (if 0 = 0 ∧ (s 0).sh.set.units k = u then M.pure IRM.ok else _ :
      M (St χ) IRM) (s 0).clear = _
    rw [if_pos ⟨rfl, he⟩]; rfl
  · have key : ({ (s 0).sh.set with
          units := Function.update (s 0).sh.set.units k
            (if 0 = 0 ∧ unitOk k u = true then u else (s 0).sh.set.units k) } : Settings) =
        Spec.apply (.setUnits k u) (s 0).sh.set := by
      simp only [Spec.apply, ← unitOk_iff, true_and]
      by_cases hu : unitOk k u = true
      · rw [if_pos hu, if_pos hu]
        congr 1
        funext j
        simp [Function.update_apply]
      · rw [if_neg hu, if_neg hu, Function.update_eq_self]
    have hset : ∀ p < n, (s p).clear.withSet { (s p).sh.set with
        units := Function.update (s p).sh.set.units k
          (if 0 = 0 ∧ unitOk k u = true then u else (s 0).sh.set.units k) } =
        (s p).clear.withSet (Spec.apply (.setUnits k u) (s 0).sh.set) := by
      intro p hp
      rw [h.agree p hp, key]
    have hmode : (Spec.apply (.setUnits k u) (s 0).sh.set).mode = (s 0).sh.set.mode := by
      rw [← key]
    have hrh : ∀ p, ∃ r : Res IRM, (returnHandler (χ := χ)
        (if p = 0 ∧ unitOk k u = false then .invalidArg else .ok))
        ((s p).clear.withSet (Spec.apply (.setUnits k u) (s 0).sh.set)) =
        .ret (r, (s p).clear.withSet (Spec.apply (.setUnits k u) (s 0).sh.set)) ∧ r.Alive := by
      intro p
      apply returnHandler_ret
      show (Spec.apply (.setUnits k u) (s 0).sh.set).mode = 0 ∨ _
      rw [hmode]
      have : ((s p).clear.withSet (Spec.apply (.setUnits k u) (s 0).sh.set)).sh.set.mode =
        (s 0).sh.set.mode := hmode
      rw [this]
      exact h.mode
    choose r hr using hrh
    refine CallOk.settings h hn (.setUnits k) nofun
      (fun p _ => M.bind (M.bcastInt (if p = 0 ∧ unitOk k u = true then u else (s p).sh.set.units k))
        (fun x => M.bind (M.modify (fun s => { s with sh := { s.sh with set :=
          { s.sh.set with units := Function.update s.sh.set.units k x } } }))
          (fun _ => returnHandler (if p = 0 ∧ unitOk k u = false then .invalidArg else .ok))))
      ?_ ?_ (r := r) ?_ (fun p _ => (hr p).2) (by intro a v hc; cases hc) (by rw [hmode]; exact h.mode)
      (by rw [← key])
    · show (if 0 = 0 ∧ (s 0).sh.set.units k = u then M.pure IRM.ok else _ :
        M (St χ) IRM) (s 0).clear = _
      rw [if_neg (fun hh => he hh.2)]; rfl
    · intro p hp h0
      show (if p = 0 ∧ (s p).sh.set.units k = 0 then M.pure IRM.ok else _ :
        M (St χ) IRM) (s p).clear = _
      rw [if_neg (fun hh => h0 hh.1)]
      simp only [Lockstep.tell, M.onRoot, h0, false_and, if_false]
      rfl
    · refine Tog.bind (Tog.bcastInt _) (Tog.loc ?_)
      intro p hp
      show returnHandler _ ((s p).clear.withSet { (s p).sh.set with
        units := Function.update (s p).sh.set.units k
          (if 0 = 0 ∧ unitOk k u = true then u else (s 0).sh.set.units k) }) = _
      rw [hset p hp]
      exact (hr p).1

theorem callOk_setMode {s : Nat → St χ} (h : Ready n s) (hn : 0 < n) (i : Int) (hi : i ≠ 2) :
    CallOk E n (.setMode i) s := by
  by_cases he : (s 0).sh.set.mode = i
  · refine CallOk.early h hn (x := .ok .ok) (alive_ok _) (s0 := (s 0).clear)
      ⟨rfl, fun _ _ => rfl, fun _ _ => rfl, rfl, rfl, rfl⟩ rfl ?_ ?_ (by intro a v hc; cases hc)
    · show (if 0 = 0 ∧ (s 0).sh.set.mode = i then M.pure IRM.ok else _ :
        M (St χ) IRM) (s 0).clear = _
      rw [if_pos ⟨rfl, he⟩]; rfl
    · have := h.mode
      rw [he] at this
      simp only [Spec.apply]
      rw [if_pos (by omega), ← he]
  · have hgood : decide (0 ≤ i ∧ i < 3) = true ↔ i = 0 ∨ i = 1 := by
      simp only [decide_eq_true_eq]; omega
    have key : ({ (s 0).sh.set with mode := (if 0 = 0 then (if decide (0 ≤ i ∧ i < 3) then i else 0)
        else (s 0).sh.set.mode) } : Settings) = Spec.apply (.setMode i) (s 0).sh.set := by
      simp only [Spec.apply, if_true]
      congr 1
      by_cases hg : i = 0 ∨ i = 1
      · rw [if_pos (hgood.2 hg), if_pos (by omega)]
      · rw [if_neg (fun hh => hg (hgood.1 hh)), if_neg (by omega)]
    have hm' : (Spec.apply (.setMode i) (s 0).sh.set).mode = 0 ∨
        (Spec.apply (.setMode i) (s 0).sh.set).mode = 1 := by
      simp only [Spec.apply]; split <;> omega
    have hrh : ∀ p, ∃ r : Res IRM, (returnHandler (χ := χ)
        (if p = 0 ∧ decide (0 ≤ i ∧ i < 3) = false then .invalidArg else .ok))
        ((s p).clear.withSet (Spec.apply (.setMode i) (s 0).sh.set)) =
        .ret (r, (s p).clear.withSet (Spec.apply (.setMode i) (s 0).sh.set)) ∧ r.Alive :=
      fun p => returnHandler_ret _ hm'
    choose r hr using hrh
    refine CallOk.settings h hn .setMode nofun
      (fun p _ => M.bind (M.bcastInt (if p = 0 then (if decide (0 ≤ i ∧ i < 3) then i else 0)
          else (s p).sh.set.mode))
        (fun x => M.bind (M.modify (fun s => { s with sh := { s.sh with set :=
          { s.sh.set with mode := x } } }))
          (fun _ => returnHandler (if p = 0 ∧ decide (0 ≤ i ∧ i < 3) = false then .invalidArg else .ok))))
      ?_ ?_ (r := r) ?_ (fun p _ => (hr p).2) (by intro a v hc; cases hc) hm' rfl
    · show (if 0 = 0 ∧ (s 0).sh.set.mode = i then M.pure IRM.ok else _ :
        M (St χ) IRM) (s 0).clear = _
      rw [if_neg (fun hh => he hh.2)]; rfl
    · intro p hp h0
      show (if p = 0 ∧ (s p).sh.set.mode = 1 then M.pure IRM.ok else _ :
        M (St χ) IRM) (s p).clear = _
      rw [if_neg (fun hh => h0 hh.1)]
      simp only [Lockstep.tell, M.onRoot, h0, false_and, if_false]
      rfl
    · refine Tog.bind (Tog.bcastInt _) (Tog.loc ?_)
      intro p hp
      show returnHandler _ ((s p).clear.withSet { (s p).sh.set with mode :=
        (if 0 = 0 then (if decide (0 ≤ i ∧ i < 3) then i else 0) else (s 0).sh.set.mode) }) = _
      rw [h.agree p hp, key]
      exact (hr p).1

theorem callOk_setFilePrefix {s : Nat → St χ} (h : Ready n s) (hn : 0 < n) (t : List Char) :
    CallOk E n (.setFilePrefix t) s := by
  by_cases he : (s 0).sh.set.filePrefix = t
  · refine CallOk.early h hn (x := .ok .ok) (alive_ok _) (s0 := (s 0).clear)
      ⟨rfl, fun _ _ => rfl, fun _ _ => rfl, rfl, rfl, rfl⟩ rfl ?_ ?_ (by intro a v hc; cases hc)
    · show (if 0 = 0 ∧ (s 0).sh.set.filePrefix = t then M.pure IRM.ok else _ :
        M (St χ) IRM) (s 0).clear = _
      rw [if_pos ⟨rfl, he⟩]; rfl
    · simp only [Spec.apply, ← he]
  · have hrh : ∀ p, ∃ r : Res IRM, (returnHandler (χ := χ) (if t = [] then .invalidArg else .ok))
        ((s p).clear.withSet (Spec.apply (.setFilePrefix t) (s 0).sh.set)) =
        .ret (r, (s p).clear.withSet (Spec.apply (.setFilePrefix t) (s 0).sh.set)) ∧ r.Alive :=
      fun p => returnHandler_ret _ h.mode
    choose r hr using hrh
    refine CallOk.settings h hn .setFilePrefix nofun
      (fun p _ => M.bind (M.bcastInt (if p = 0 then (t.length : Int) else 0)) (fun l =>
        M.bind (M.bcastChars l.toNat (if p = 0 then t else List.replicate l.toNat ' ')) (fun x =>
        M.bind (M.modify (fun s => { s with sh := { s.sh with set :=
          { s.sh.set with filePrefix := x } } }))
          (fun _ => returnHandler (if x = [] then .invalidArg else .ok)))))
      ?_ ?_ (r := r) ?_ (fun p _ => (hr p).2) (by intro a v hc; cases hc) h.mode rfl
    · show (if 0 = 0 ∧ (s 0).sh.set.filePrefix = t then M.pure IRM.ok else _ :
        M (St χ) IRM) (s 0).clear = _
      rw [if_neg (fun hh => he hh.2)]; rfl
    · intro p hp h0
      show (if p = 0 ∧ (s p).sh.set.filePrefix = [' '] then M.pure IRM.ok else _ :
        M (St χ) IRM) (s p).clear = _
      rw [if_neg (fun hh => h0 hh.1)]
      simp only [Lockstep.tell, M.onRoot, h0, if_false]
      rfl
    · refine Tog.bind (Tog.bcastInt _) ?_
      simp only [if_true, Int.toNat_natCast]
      refine Tog.bind (Tog.bcastChars (fun p => if p = 0 then t else List.replicate t.length ' ')
        (by simp)) (Tog.loc ?_)
      intro p hp
      simp only [if_true]
      show returnHandler _ ((s p).clear.withSet { (s p).sh.set with filePrefix := t }) = _
      rw [h.agree p hp]
      exact (hr p).1

theorem callOk_setPrintOn {s : Nat → St χ} (h : Ready n s) (hn : 0 < n) (w i u : Bool) :
    CallOk E n (.setPrintOn w i u) s := by
  by_cases he : (s 0).sh.set.printOn = (w, i, u)
  · refine CallOk.early h hn (x := .ok .ok) (alive_ok _) (s0 := (s 0).clear)
      ⟨rfl, fun _ _ => rfl, fun _ _ => rfl, rfl, rfl, rfl⟩ rfl ?_ ?_ (by intro a v hc; cases hc)
    · show (if 0 = 0 ∧ (s 0).sh.set.printOn = (w, i, u) then M.pure IRM.ok else _ :
        M (St χ) IRM) (s 0).clear = _
      rw [if_pos ⟨rfl, he⟩]; rfl
    · simp only [Spec.apply, ← he]
  · refine CallOk.settings h hn .setPrintOn nofun
      (fun p _ => M.bind (M.bcastInts 3 [if p = 0 ∧ w = true then 1 else 0,
          if p = 0 ∧ i = true then 1 else 0, if p = 0 ∧ u = true then 1 else 0]) (fun l =>
        match l with
        | [x, y, z] => M.bind (M.modify (fun s => { s with sh := { s.sh with set :=
          { s.sh.set with printOn := (decide (x ≠ 0), decide (y ≠ 0), decide (z ≠ 0)) } } }))
          (fun _ => M.pure .ok)
        | _ => M.ub))
      ?_ ?_ (r := fun _ => .ok .ok) ?_ (fun _ _ => alive_ok _) (by intro a v hc; cases hc) h.mode rfl
    · show (if 0 = 0 ∧ (s 0).sh.set.printOn = (w, i, u) then M.pure IRM.ok else _ :
        M (St χ) IRM) (s 0).clear = _
      rw [if_neg (fun hh => he hh.2)]; rfl
    · intro p hp h0
      show (if p = 0 ∧ (s p).sh.set.printOn = (false, false, false) then M.pure IRM.ok else _ :
        M (St χ) IRM) (s p).clear = _
      rw [if_neg (fun hh => h0 hh.1)]
      simp only [Lockstep.tell, M.onRoot, h0, false_and, if_false]
      rfl
    · refine Tog.bind (Tog.bcastInts _ (by simp)) (Tog.loc ?_)
      intro p hp
      have key : ({ (s 0).sh.set with printOn := (decide ((if 0 = 0 ∧ w = true then (1 : Int) else 0) ≠ 0),
          decide ((if 0 = 0 ∧ i = true then (1 : Int) else 0) ≠ 0),
          decide ((if 0 = 0 ∧ u = true then (1 : Int) else 0) ≠ 0)) } : Settings) =
          Spec.apply (.setPrintOn w i u) (s 0).sh.set := by
        simp only [Spec.apply]
        cases w <;> cases i <;> cases u <;> simp
      show Prog.ret (Res.ok IRM.ok, (s p).clear.withSet { (s p).sh.set with printOn :=
        (decide ((if 0 = 0 ∧ w = true then (1 : Int) else 0) ≠ 0),
          decide ((if 0 = 0 ∧ i = true then (1 : Int) else 0) ≠ 0),
          decide ((if 0 = 0 ∧ u = true then (1 : Int) else 0) ≠ 0)) }) = _
      rw [h.agree p hp, key]

end Verif.Lockstep
