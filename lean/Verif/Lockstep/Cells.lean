import Verif.Lockstep.Setters

/-!
# Lemmas: the calls that distribute or collect values of cells
-/

namespace Verif.Lockstep

open Spec

variable {n : Nat} {χ α : Type} {E : Engine χ}

/-- The processes agree on the division of the cells. -/
structure Lay (n : Nat) (s : Nat → St χ) : Prop where
  agree : ∀ p < n, (s p).sh = (s 0).sh
  divides : Divides n (s 0).sh.back.length (s 0).sh.cells
  back : ∀ b ∈ (s 0).sh.back, ∃ i, b.head? = some i ∧ i < (s 0).sh.nxyz

theorem lay_of_ready {s : Nat → St χ} (h : Ready n s) : Lay n s := ⟨h.agree, h.divides, h.back⟩

theorem pick_some {back : List (List Nat)} {nxyz : Nat} {v : List α} (hl : nxyz ≤ v.length)
    (hb : ∀ b ∈ back, ∃ i, b.head? = some i ∧ i < nxyz) :
    ∃ d, pick back v = some d ∧ d.length = back.length ∧
      ∀ k < d.length, ∃ i, back[k]?.bind List.head? = some i ∧ i < v.length ∧ d[k]? = v[i]? := by
  induction back with
  | nil => exact ⟨[], rfl, rfl, fun k hk => absurd hk (by simp)⟩
  | cons b back ih =>
    obtain ⟨i, hi, hn⟩ := hb b (by simp)
    obtain ⟨d, h1, h2, h3⟩ := ih (fun b' hb' => hb b' (by simp [hb']))
    have hi' : i < v.length := by omega
    have hp : pick (b :: back) v = some (v[i] :: d) := by
      unfold pick at h1 ⊢
      simp only [List.mapM_cons, hi, Option.bind_some, List.getElem?_eq_getElem hi', h1]
      rfl
    refine ⟨_, hp, by simp [h2], ?_⟩
    intro k hk
    cases k with
    | zero => exact ⟨i, by simpa using hi, hi', by simp [List.getElem?_eq_getElem hi']⟩
    | succ k =>
      obtain ⟨j, h4, h5, h6⟩ := h3 k (by simpa using hk)
      exact ⟨j, by simpa using h4, h5, by simpa using h6⟩

theorem parts_get {cs : List Nat} {d : List α} {p : Nat} (hp : p < cs.length) :
    (parts cs d)[p]? = some ((d.drop (cs.take p).sum).take (cs.getD p 0)) := by
  induction cs generalizing d p with
  | nil => exact absurd hp (by simp)
  | cons c cs ih =>
    cases p with
    | zero => simp [parts]
    | succ p =>
      simp only [List.length_cons, Nat.add_lt_add_iff_right] at hp
      simp only [parts, List.getElem?_cons_succ, ih hp, List.take_succ_cons, List.sum_cons,
        List.drop_drop, List.getD_cons_succ]

theorem take_sum_add {cs : List Nat} {p : Nat} (hp : p < cs.length) :
    (cs.take p).sum + cs.getD p 0 ≤ cs.sum := by
  induction cs generalizing p with
  | nil => exact absurd hp (by simp)
  | cons c cs ih =>
    cases p with
    | zero => simp
    | succ p =>
      simp only [List.length_cons, Nat.add_lt_add_iff_right] at hp
      have := ih hp
      simp only [List.take_succ_cons, List.sum_cons, List.getD_cons_succ]
      omega

theorem piece_of {back : List (List Nat)} {cells : List Nat} {v d : List α} {p : Nat}
    (hd : d.length = back.length) (hc : cells.sum = back.length) (hp : p < cells.length)
    (h : ∀ k < d.length, ∃ i, back[k]?.bind List.head? = some i ∧ i < v.length ∧ d[k]? = v[i]?) :
    PieceOf back cells p v ((d.drop (cells.take p).sum).take (cells.getD p 0)) := by
  have hs := take_sum_add hp
  have hl : ((d.drop (cells.take p).sum).take (cells.getD p 0)).length = cells.getD p 0 := by
    rw [List.length_take, List.length_drop]; omega
  refine ⟨hl, ?_⟩
  intro l hlt
  rw [hl] at hlt
  obtain ⟨i, h1, h2, h3⟩ := h ((cells.take p).sum + l) (by omega)
  refine ⟨i, h1, h2, ?_⟩
  rw [List.getElem?_take, if_pos hlt, List.getElem?_drop, h3]

theorem tog_scatter {s : Nat → St χ} (h : Lay n s) (hn : 0 < n) (src : Nat → List ℚ)
    (hl : (s 0).sh.nxyz ≤ (src 0).length) :
    ∃ x : Nat → List ℚ, Tog n (fun p => scatterNchem p (src p)) s (fun p => .ok (x p)) s ∧
      ∀ p < n, PieceOf (s 0).sh.back (s 0).sh.cells p (src 0) (x p) := by
  obtain ⟨d, h1, h2, h3⟩ := pick_some hl h.back
  refine ⟨fun p => (d.drop ((s 0).sh.cells.take p).sum).take ((s 0).sh.cells.getD p 0), ?_, ?_⟩
  · have ht := Tog.scattervDbls (n := n) (s := s)
      (fun p => if p = 0 then parts (s 0).sh.cells d else []) (fun p => (s 0).sh.count p)
      (fun p => (d.drop ((s 0).sh.cells.take p).sum).take ((s 0).sh.cells.getD p 0)) (by
        intro p hp
        have hp' : p < (s 0).sh.cells.length := by rw [h.divides.1]; exact hp
        refine ⟨by rw [if_pos rfl]; exact parts_get hp', ?_⟩
        exact (piece_of h2 h.divides.2 hp' h3).1)
    refine ht.congr ?_
    intro p hp
    by_cases h0 : p = 0
    · subst h0
      show (match pick (s 0).sh.back (src 0) with
        | none => M.ub
        | some d => M.scattervDbls (parts (s 0).sh.cells d) ((s 0).sh.count 0)) (s 0) = _
      rw [h1]; rfl
    · simp only [scatterNchem, if_neg h0]
      show M.scattervDbls [] ((s p).sh.count p) (s p) = _
      rw [h.agree p hp]
  · intro p hp
    exact piece_of h2 h.divides.2 (by rw [h.divides.1]; exact hp) h3

theorem tog_scatterInt {s : Nat → St χ} (h : Lay n s) (hn : 0 < n) (src : Nat → List Int)
    (hl : (s 0).sh.nxyz ≤ (src 0).length) :
    ∃ x : Nat → List Int, Tog n (fun p => scatterNchemInt p (src p)) s (fun p => .ok (x p)) s ∧
      ∀ p < n, PieceOf (s 0).sh.back (s 0).sh.cells p (src 0) (x p) := by
  obtain ⟨d, h1, h2, h3⟩ := pick_some hl h.back
  refine ⟨fun p => (d.drop ((s 0).sh.cells.take p).sum).take ((s 0).sh.cells.getD p 0), ?_, ?_⟩
  · have ht := Tog.scattervInts (n := n) (s := s)
      (fun p => if p = 0 then parts (s 0).sh.cells d else []) (fun p => (s 0).sh.count p)
      (fun p => (d.drop ((s 0).sh.cells.take p).sum).take ((s 0).sh.cells.getD p 0)) (by
        intro p hp
        have hp' : p < (s 0).sh.cells.length := by rw [h.divides.1]; exact hp
        refine ⟨by rw [if_pos rfl]; exact parts_get hp', ?_⟩
        exact (piece_of h2 h.divides.2 hp' h3).1)
    refine ht.congr ?_
    intro p hp
    by_cases h0 : p = 0
    · subst h0
      show (match pick (s 0).sh.back (src 0) with
        | none => M.ub
        | some d => M.scattervInts (parts (s 0).sh.cells d) ((s 0).sh.count 0)) (s 0) = _
      rw [h1]; rfl
    · simp only [scatterNchemInt, if_neg h0]
      show M.scattervInts [] ((s p).sh.count p) (s p) = _
      rw [h.agree p hp]
  · intro p hp
    exact piece_of h2 h.divides.2 (by rw [h.divides.1]; exact hp) h3

/-- The program starts with the broadcast of the method and goes on with `Q`. -/
def Tells (m : Method) (P Q : Prog α) : Prop :=
  ∃ k0, P = .coll (.bcast .int 1 (.ints [m.code])) k0 ∧ k0 (.one (.ints [m.code])) = Q

/-- Calls whose functions finish together after the broadcast of the method. -/
theorem CallOk.told {s s1 : Nat → St χ} {c : Call} (m : Method)
    (hm : m ≠ .workerBreak) (G : Nat → M (St χ) IRM)
    (hp : Tells m (perform E n c (s 0)) (G 0 (s1 0)))
    (hw : ∀ p < n, p ≠ 0 → dispatch E n p m (s p) = G p (s1 p))
    {r : Nat → Res IRM} {s' : Nat → St χ} (ht : Tog n G s1 r s')
    (hr : ∀ p < n, (r p).Alive) (hrd : Ready n s') (hpost : Post n c s s') : CallOk E n c s := by
  intro r0 ha
  refine ⟨r, s', ?_, hr, hrd, hpost⟩
  obtain ⟨k0, h1, h2⟩ := hp
  refine Served.round (β := Outcome χ) m hm k0 h1 (fun p => G p (s1 p)) .ret (fun _ b => b)
    (R := fun p => (r p, s' p)) (h2.trans (Prog.bind_ret _).symm) ?_ ha ht (Served.ret _)
  intro p hp h0
  rw [hw p hp h0]
  exact (Prog.bind_ret _).symm

theorem array_other {nxyz : Nat} {a : Arr} {c : Call} {v : List ℚ} (hc : ∀ b w, c ≠ .setArr b w) :
    Spec.array nxyz a [c] v = v := by
  cases c <;> first | rfl | exact absurd rfl (hc _ _)

theorem callOk_setArr {s : Nat → St χ} (h : Ready n s) (hn : 0 < n) (a : Arr) (v : List ℚ) :
    CallOk E n (.setArr a v) s := by
  by_cases hv : v.length < (s 0).sh.nxyz
  · obtain ⟨r, h1, h2⟩ := returnHandler_ret (s := (s 0).clear) IRM.fail h.mode
    refine CallOk.early h hn (x := r) h2 (s0 := (s 0).clear)
      ⟨rfl, fun _ _ => rfl, fun _ _ => rfl, rfl, rfl, rfl⟩ rfl ?_ rfl ?_
    · rw [← h1]
      show (if 0 = 0 ∧ v.length < (s 0).sh.nxyz then returnHandler .fail else _ :
        M (St χ) IRM) (s 0).clear = _
      rw [if_pos ⟨rfl, hv⟩]
    · intro b w hc
      cases hc
      exact hv
  · let s1 : Nat → St χ := fun p => if p = 0 then { (s 0).clear with
      rootArr := Function.update (s 0).rootArr a v } else (s p).clear
    have e0 : ∀ p, (s1 p).sh = (s p).sh := by
      intro p; by_cases hp0 : p = 0 <;> simp [s1, hp0, St.clear]
    have hl : Lay n s1 := by
      refine ⟨?_, ?_, ?_⟩
      · intro p hp; rw [e0, e0]; exact h.agree p hp
      · rw [e0]; exact h.divides
      · rw [e0]; exact h.back
    obtain ⟨x, hx, hp⟩ := tog_scatter hl hn (fun p => (s1 p).rootArr a) (by
      rw [e0]
      have : (s1 0).rootArr a = v := by simp [s1]
      rw [this]; omega)
    let s2 : Nat → St χ := fun p => { s1 p with workArr := Function.update (s1 p).workArr a (x p) }
    let s3 : Nat → St χ := fun p => if a = .pressure ∨ a = .temperature then
      { s2 p with chem := E.apply a ((s2 p).sh.start p) ((s2 p).workArr a) (s2 p).chem } else s2 p
    have e3 : ∀ p, (s3 p).sh = (s p).sh ∧ (s3 p).rootArr = (s1 p).rootArr ∧
        (s3 p).workArr = Function.update (s p).workArr a (x p) ∧ (s3 p).maskRoot = (s p).maskRoot ∧
        (s3 p).maskWork = (s p).maskWork ∧ (s3 p).saved = (s p).saved ∧
        (s3 p).oldSatRoot = (s p).oldSatRoot := by
      intro p
      have hw : (s1 p).workArr = (s p).workArr ∧ (s1 p).maskRoot = (s p).maskRoot ∧
        (s1 p).maskWork = (s p).maskWork ∧ (s1 p).saved = (s p).saved ∧
        (s1 p).oldSatRoot = (s p).oldSatRoot := by
        by_cases hp0 : p = 0 <;> simp [s1, hp0, St.clear]
      obtain ⟨w1, w2, w3, w4, w5⟩ := hw
      by_cases ha : a = .pressure ∨ a = .temperature
      · simp only [s3, if_pos ha]
        exact ⟨e0 p, rfl, by rw [← w1], w2, w3, w4, w5⟩
      · simp only [s3, if_neg ha]
        exact ⟨e0 p, rfl, by rw [← w1], w2, w3, w4, w5⟩
    have er : (s3 0).rootArr = Function.update (s 0).rootArr a v := by
      rw [(e3 0).2.1]; simp [s1]
    refine CallOk.told (.setArr a) nofun (fun p => M.bind (M.bind M.get (fun s =>
        M.bind (scatterNchem p (s.rootArr a)) (fun d =>
        M.bind (M.modify (fun s => { s with workArr := Function.update s.workArr a d })) (fun _ =>
        M.pure IRM.ok)))) (fun _ => afterGeneric E p a)) (s1 := s1) ?_ ?_ (r := fun _ => .ok .ok)
      (s' := s3) ?_ (fun _ _ => alive_ok _) ?_ ?_
    · show Tells _ ((if 0 = 0 ∧ v.length < (s 0).sh.nxyz then returnHandler .fail else _ :
        M (St χ) IRM) (s 0).clear) _
      rw [if_neg (fun hh => hv hh.2)]
      exact ⟨_, rfl, rfl⟩
    · intro p hp h0
      show (if p = 0 ∧ _ then returnHandler .fail else _ : M (St χ) IRM) (s p).clear = _
      rw [if_neg (fun hh => h0 hh.1)]
      have : s1 p = (s p).clear := by simp [s1, h0]
      simp only [Lockstep.tell, scatterArr, M.onRoot, if_neg h0, this]
      rfl
    · refine Tog.bind (a := fun _ => IRM.ok) (s1 := s2) ?_ (Tog.loc ?_)
      · exact Tog.get_bind (Tog.bind hx (Tog.loc (fun _ _ => rfl)))
      · intro p hp
        unfold afterGeneric
        by_cases ha : a = .pressure ∨ a = .temperature
        · simp only [s3, if_pos ha]; rfl
        · simp only [s3, if_neg ha]; rfl
    · refine ⟨?_, ?_, ?_, ?_, ?_, ?_, ?_, ?_, ?_⟩
      · intro p hp; rw [(e3 p).1, (e3 0).1]; exact h.agree p hp
      · rw [(e3 0).1]; exact h.divides
      · rw [(e3 0).1]; exact h.back
      · intro b hb
        rw [(e3 0).1, er, Function.update_apply]
        split
        · omega
        · exact h.arrays b hb
      · rw [(e3 0).1, (e3 0).2.2.2.1]; exact h.mask
      · intro p hp
        rw [(e3 0).1, (e3 p).2.2.2.2.2.1]; exact h.keys p hp
      · rw [(e3 0).1]; exact h.savedDivides
      · rw [(e3 0).1]; exact h.mode
      · rw [(e3 0).1, (e3 0).2.2.2.2.2.2]; exact h.oldSat
    · refine ⟨?_, ?_, ?_, ?_, ?_, ?_⟩
      · rw [(e3 0).1]; rfl
      · rw [(e3 0).1]
      · rw [(e3 0).1]
      · rw [(e3 0).1]
      · intro b hb
        simp only [Spec.array]
        rw [er, Function.update_apply]
        by_cases hba : b = a
        · subst hba; rw [if_pos rfl, if_pos ⟨rfl, by omega⟩]
        · rw [if_neg hba, if_neg (fun hh => hba hh.1.symm)]
      · intro _ hpc p hpn
        obtain ⟨q1, q2⟩ := hpc p hpn
        refine ⟨?_, ?_⟩
        · intro b hb
          rw [(e3 0).1, er, (e3 p).2.2.1]
          by_cases hba : b = a
          · subst hba
            have := hp p hpn
            rw [e0] at this
            simpa [s1] using this
          · rw [Function.update_of_ne hba, Function.update_of_ne hba]
            exact q1 b hb
        · rw [(e3 0).1, (e3 0).2.2.2.1, (e3 p).2.2.2.2.1]
          exact q2

theorem callOk_setMask {s : Nat → St χ} (h : Ready n s) (hn : 0 < n) (m : List Int)
    (hm : (s 0).sh.nxyz ≤ m.length) : CallOk E n (.setMask m) s := by
  let s1 : Nat → St χ := fun p => if p = 0 then { (s 0).clear with maskRoot := m } else (s p).clear
  have e0 : ∀ p, (s1 p).sh = (s p).sh := by
    intro p; by_cases hp0 : p = 0 <;> simp [s1, hp0, St.clear]
  have hl : Lay n s1 := by
    refine ⟨?_, ?_, ?_⟩
    · intro p hp; rw [e0, e0]; exact h.agree p hp
    · rw [e0]; exact h.divides
    · rw [e0]; exact h.back
  obtain ⟨x, hx, hp⟩ := tog_scatterInt hl hn (fun p => (s1 p).maskRoot) (by
    rw [e0]
    have : (s1 0).maskRoot = m := by simp [s1]
    rw [this]; exact hm)
  let s3 : Nat → St χ := fun p => { s1 p with maskWork := x p }
  have e3 : ∀ p, (s3 p).sh = (s p).sh ∧ (s3 p).rootArr = (s p).rootArr ∧
      (s3 p).workArr = (s p).workArr ∧ (s3 p).saved = (s p).saved ∧
      (s3 p).oldSatRoot = (s p).oldSatRoot := by
    intro p
    by_cases hp0 : p = 0 <;> simp [s3, s1, hp0, St.clear]
  have em : (s3 0).maskRoot = m := by simp [s3, s1]
  refine CallOk.told .setMask nofun (fun p => M.bind (M.tryCatch (M.bind M.get (fun s =>
      M.bind (scatterNchemInt p s.maskRoot) (fun d =>
      M.bind (M.modify (fun s => { s with maskWork := d })) (fun _ => M.pure IRM.ok))))
      (M.pure .invalidArg)) (fun c => returnHandler c)) (s1 := s1) ?_ ?_ (r := fun _ => .ok .ok)
    (s' := s3) ?_ (fun _ _ => alive_ok _) ?_ ?_
  · refine ⟨_, rfl, ?_⟩
    show M.bind (M.tryCatch (if 0 = 0 ∧ m.length < (s 0).sh.nxyz then M.throw else scatterMask 0 m)
      (M.pure .invalidArg)) (fun c => returnHandler c) (s 0).clear = _
    rw [if_neg (by omega)]
    rfl
  · intro p hp h0
    have h1 : s1 p = (s p).clear := by simp [s1, h0]
    show M.bind (tell p .setMask) (fun _ => M.bind M.get (fun s' => M.bind (M.tryCatch
      (if p = 0 ∧ 0 < s'.sh.nxyz then M.throw else scatterMask p [])
      (M.pure .invalidArg)) (fun c => returnHandler c))) (s p).clear = _
    simp only [Lockstep.tell, M.onRoot, scatterMask, h0, false_and, if_false, h1]
    rfl
  · refine Tog.bind (a := fun _ => IRM.ok) (s1 := s3) (Tog.catch_ok ?_) (Tog.loc (fun _ _ => rfl))
    exact Tog.get_bind (Tog.bind hx (Tog.loc (fun _ _ => rfl)))
  · refine ⟨?_, ?_, ?_, ?_, ?_, ?_, ?_, ?_, ?_⟩
    · intro p hp; rw [(e3 p).1, (e3 0).1]; exact h.agree p hp
    · rw [(e3 0).1]; exact h.divides
    · rw [(e3 0).1]; exact h.back
    · rw [(e3 0).1, (e3 0).2.1]; exact h.arrays
    · rw [(e3 0).1, em]; exact hm
    · intro p hp
      rw [(e3 0).1, (e3 p).2.2.2.1]; exact h.keys p hp
    · rw [(e3 0).1]; exact h.savedDivides
    · rw [(e3 0).1]; exact h.mode
    · rw [(e3 0).1, (e3 0).2.2.2.2]; exact h.oldSat
  · refine ⟨?_, ?_, ?_, ?_, ?_, ?_⟩
    · rw [(e3 0).1]; rfl
    · rw [(e3 0).1]
    · rw [(e3 0).1]
    · rw [(e3 0).1]
    · intro b hb
      rw [(e3 0).2.1]; rfl
    · intro _ hpc p hpn
      obtain ⟨q1, q2⟩ := hpc p hpn
      refine ⟨?_, ?_⟩
      · rw [(e3 0).1, (e3 0).2.1, (e3 p).2.2.1]
        exact q1
      · rw [(e3 0).1, em]
        have := hp p hpn
        rw [e0] at this
        simpa [s1] using this

theorem callOk_setPartitionUZ {s : Nat → St χ} (h : Ready n s) (hn : 0 < n) (t : Bool) :
    CallOk E n (.setPartitionUZ t) s := by
  by_cases he : (s 0).sh.set.partUZ = t
  · refine CallOk.early h hn (x := .ok .ok) (alive_ok _) (s0 := (s 0).clear)
      ⟨rfl, fun _ _ => rfl, fun _ _ => rfl, rfl, rfl, rfl⟩ rfl ?_ ?_ (by intro a v hc; cases hc)
    · show (if 0 = 0 ∧ (s 0).sh.set.partUZ = t then M.pure IRM.ok else _ :
        M (St χ) IRM) (s 0).clear = _
      rw [if_pos ⟨rfl, he⟩]; rfl
    · simp only [Spec.apply, ← he]
  · let g : Settings := Spec.apply (.setPartitionUZ t) (s 0).sh.set
    let s1 : Nat → St χ := fun p => (s p).clear.withSet g
    let s2 : Nat → St χ := fun p => if p = 0 ∧ (s1 p).oldSatRoot.length ≠ (s1 p).sh.nxyz then
        { s1 p with oldSatRoot := (s1 p).oldSatRoot.take (s1 p).sh.nxyz ++
          List.replicate ((s1 p).sh.nxyz - (s1 p).oldSatRoot.length) 1 } else s1 p
    have hlen : (s1 0).sh.nxyz ≤ (s2 0).oldSatRoot.length := by
      by_cases hc : (s1 0).oldSatRoot.length = (s1 0).sh.nxyz
      · simp only [s2, true_and, ne_eq, hc, not_true_eq_false, if_false]
        omega
      · simp only [s2, true_and, ne_eq, hc, not_false_eq_true, if_true, List.length_append,
          List.length_take, List.length_replicate]
        omega
    have e2 : ∀ p, (s2 p).sh = (s1 p).sh := by
      intro p
      by_cases hc : p = 0 ∧ (s1 p).oldSatRoot.length ≠ (s1 p).sh.nxyz
      · simp only [s2, if_pos hc]
      · simp only [s2, if_neg hc]
    have k1 : ∀ p < n, Kin g (s 0).sh.check (s p) (s1 p) := by
      intro p hp
      have := Kin.withSet (s p) g
      rw [h.agree p hp] at this
      exact this
    have hl2 : Lay n s2 := by
      refine ⟨?_, ?_, ?_⟩
      · intro p hp
        rw [e2, e2, (k1 p hp).sh, (k1 0 hn).sh, h.agree p hp]
      · rw [e2]; exact h.divides
      · rw [e2]; exact h.back
    obtain ⟨x, hx, _⟩ := tog_scatter hl2 hn (fun p => (s2 p).oldSatRoot) (by rw [e2]; exact hlen)
    let s3 : Nat → St χ := fun p => if t = true then { s2 p with oldSatWork := x p } else s1 p
    have k3 : ∀ p < n, Kin g (s 0).sh.check (s p) (s3 p) := by
      intro p hp
      have k := k1 p hp
      by_cases ht : t = true
      · by_cases hc : p = 0 ∧ (s1 p).oldSatRoot.length ≠ (s1 p).sh.nxyz
        · simp only [s3, if_pos ht, s2, if_pos hc]
          exact ⟨k.sh, k.rootArr, k.workArr, k.maskRoot, k.maskWork, k.saved⟩
        · simp only [s3, if_pos ht, s2, if_neg hc]
          exact ⟨k.sh, k.rootArr, k.workArr, k.maskRoot, k.maskWork, k.saved⟩
      · simp only [s3, if_neg ht]
        exact k
    refine CallOk.told .setPartitionUZ nofun
      (fun p => M.bind (M.bcastInt (if (if p = 0 then t else (s p).sh.set.partUZ) = true then 1 else 0))
        (fun x => M.bind (M.modify (fun s => { s with sh := { s.sh with set :=
          { s.sh.set with partUZ := decide (x ≠ 0) } } })) (fun _ =>
          if x ≠ 0 then M.bind (M.modify (fun s => if p = 0 ∧ s.oldSatRoot.length ≠ s.sh.nxyz then
            { s with oldSatRoot := s.oldSatRoot.take s.sh.nxyz ++
              List.replicate (s.sh.nxyz - s.oldSatRoot.length) 1 } else s)) (fun _ =>
            M.bind M.get (fun s => M.bind (scatterNchem p s.oldSatRoot) (fun d =>
            M.bind (M.modify (fun s => { s with oldSatWork := d })) (fun _ => M.pure IRM.ok))))
          else M.pure IRM.ok)))
      (s1 := fun p => (s p).clear) ?_ ?_ (r := fun _ => .ok .ok)
      (s' := s3) ?_ (fun _ _ => alive_ok _)
      (ready_kin h hn k3 h.mode ?_) (Post.kin hn k3 rfl (by intro a v hc; cases hc))
    · show Tells _ ((if 0 = 0 ∧ (s 0).sh.set.partUZ = t then M.pure IRM.ok else _ :
        M (St χ) IRM) (s 0).clear) _
      rw [if_neg (fun hh => he hh.2)]
      exact ⟨_, rfl, rfl⟩
    · intro p hp h0
      show (if p = 0 ∧ (s p).sh.set.partUZ = false then M.pure IRM.ok else _ :
        M (St χ) IRM) (s p).clear = _
      rw [if_neg (fun hh => h0 hh.1)]
      simp only [Lockstep.tell, M.onRoot, if_neg h0]
      rfl
    · refine Tog.bind (Tog.bcastInt _) (Tog.modify_bind ?_)
      have hs1 : ∀ p < n, ({ (s p).clear with sh := { (s p).clear.sh with set :=
          { (s p).clear.sh.set with partUZ := decide ((if (if 0 = 0 then t else
            (s 0).sh.set.partUZ) = true then (1 : Int) else 0) ≠ 0) } } } : St χ) = s1 p := by
        intro p hp
        have : decide ((if (if 0 = 0 then t else (s 0).sh.set.partUZ) = true then (1 : Int) else 0) ≠ 0)
            = t := by cases t <;> simp
        rw [this]
        show (s p).clear.withSet { (s p).sh.set with partUZ := t } = _
        rw [h.agree p hp]
        rfl
      by_cases ht : t = true
      · have hx1 : (if (if 0 = 0 then t else (s 0).sh.set.partUZ) = true then (1 : Int) else 0) ≠ 0 := by
          simp [ht]
        have hmain : Tog n (fun p => M.bind (M.modify (fun (s : St χ) =>
            if p = 0 ∧ s.oldSatRoot.length ≠ s.sh.nxyz then
            { s with oldSatRoot := s.oldSatRoot.take s.sh.nxyz ++
              List.replicate (s.sh.nxyz - s.oldSatRoot.length) 1 } else s)) (fun _ =>
            M.bind M.get (fun s => M.bind (scatterNchem p s.oldSatRoot) (fun d =>
            M.bind (M.modify (fun s => { s with oldSatWork := d })) (fun _ => M.pure IRM.ok))))) s1
            (fun _ => .ok .ok) s3 := by
          refine Tog.modify_bind (Tog.get_bind (Tog.bind (s1 := s2) hx (Tog.loc ?_)))
          intro p hp
          show Prog.ret (Res.ok IRM.ok, { s2 p with oldSatWork := x p }) = _
          simp only [s3, if_pos ht]
        refine hmain.congr ?_
        intro p hp
        dsimp only
        rw [if_pos hx1, hs1 p hp]
      · have hx1 : ¬ (if (if 0 = 0 then t else (s 0).sh.set.partUZ) = true then (1 : Int) else 0) ≠ 0 := by
          simp [ht]
        refine Tog.loc ?_
        intro p hp
        dsimp only
        rw [if_neg hx1, hs1 p hp]
        simp only [s3, if_neg ht]
        rfl
    · intro hg
      have ht : t = true := hg
      show _ ≤ (s3 0).oldSatRoot.length
      simp only [s3, if_pos ht]
      exact hlen

end Verif.Lockstep
