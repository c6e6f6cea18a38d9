import Verif.Lockstep.Calls3

/-!
# Lemmas: cells move between processes
-/

namespace Verif.Lockstep

open Spec

variable {n : Nat} {χ α β σ : Type} {E : Engine χ}

/-! ## Ranges of cells -/

theorem ownerOf_lt {cells : List Nat} {k : Nat} (h : k < cells.sum) : ownerOf cells k < cells.length := by
  induction cells generalizing k with
  | nil => simp at h
  | cons c cs ih =>
    simp only [ownerOf, List.length_cons]
    split
    · omega
    · have := ih (k := k - c) (by rw [List.sum_cons] at h; omega)
      omega

theorem eq_of_owners : ∀ {a b : List Nat}, a.length = b.length → a.sum = b.sum →
    (∀ k < a.sum, ownerOf a k = ownerOf b k) → a = b
  | [], [], _, _, _ => rfl
  | [], _ :: _, h, _, _ => by simp at h
  | _ :: _, [], h, _, _ => by simp at h
  | x :: a, y :: b, h, hs, ho => by
    have hxy : x = y := by
      rcases Nat.lt_trichotomy x y with hlt | heq | hlt
      · have := ho x (by rw [hs, List.sum_cons]; omega)
        simp [ownerOf, hlt] at this
      · exact heq
      · have := ho y (by rw [List.sum_cons]; omega)
        simp [ownerOf, hlt] at this
    subst hxy
    congr 1
    simp only [List.sum_cons] at hs ho
    refine eq_of_owners (by simpa using h) (by omega) ?_
    intro k hk
    have := ho (k + x) (by omega)
    simpa [ownerOf, show ¬ k + x < x by omega] using this

theorem same_of_unmoved {a b : List Nat} {count : Nat} (ha : Divides n count a) (hb : Divides n count b)
    (h : movedCells a b count = []) : b = a := by
  refine (eq_of_owners (ha.1.trans hb.1.symm) (ha.2.trans hb.2.symm) ?_).symm
  intro k hk
  by_contra hne
  have : k ∈ movedCells a b count := by
    unfold movedCells
    rw [List.mem_filter]
    exact ⟨List.mem_range.2 (by rw [← ha.2]; exact hk), by simpa using hne⟩
  rw [h] at this
  exact absurd this (by simp)

theorem transferPairs_ranks {a b : List Nat} {count : Nat} (ha : Divides n count a)
    (hb : Divides n count b) {e : Nat × Nat × List Nat} (he : e ∈ transferPairs a b count) :
    e.1 < n ∧ e.2.1 < n ∧ e.1 ≠ e.2.1 := by
  unfold transferPairs at he
  obtain ⟨k, hk, rfl⟩ := List.mem_map.1 he
  rw [List.mem_mergeSort, List.mem_eraseDups] at hk
  obtain ⟨c, hc, rfl⟩ := List.mem_map.1 hk
  unfold movedCells at hc
  obtain ⟨h1, h2⟩ := List.mem_filter.1 hc
  have h1 := List.mem_range.1 h1
  refine ⟨?_, ?_, by simpa using h2⟩
  · have := ownerOf_lt (cells := a) (k := c) (by rw [ha.2]; exact h1)
    rw [ha.1] at this; exact this
  · have := ownerOf_lt (cells := b) (k := c) (by rw [hb.2]; exact h1)
    rw [hb.1] at this; exact this

/-! ## One pair of processes -/

theorem Soft.ofChem {s : Nat → St χ} (s1 : Nat → χ) : ∀ p, Soft (s p) ({ s p with chem := s1 p } : St χ) :=
  fun _ => soft_chem _ _

theorem tog_moveData (hw : Works n E) (s : Nat → St χ) {e : Nat × Nat × List Nat} (h1 : e.1 < n)
    (h2 : e.2.1 < n) (hne : e.1 ≠ e.2.1) :
    ∃ c : Nat → χ, Tog n (fun p => moveData E p e) s (fun _ => .ok 0) (fun p => { s p with chem := c p }) := by
  obtain ⟨x, hx⟩ := Option.isSome_iff_exists.1 (hw.unpack (s e.2.1).chem (E.pack (s e.1).chem e.2.2))
  refine ⟨fun p => if p = e.1 then (E.delete (s p).chem e.2.2).1 else if p = e.2.1 then x
    else (s p).chem, ?_⟩
  have hne' : e.2.1 ≠ e.1 := fun h => hne h.symm
  let y := E.pack (s e.1).chem e.2.2
  let v : Val := .packed y.1 y.2.1 y.2.2
  let z : Val := .ints [(v.len : Int), (y.1.length : Int), (y.2.1.length : Int), (y.2.2.length : Int)]
  refine Together.exchange (p := e.1) (q := e.2.1) (v := z) (ty := .int) (c := 4) h1 h2
    (k := .send e.2.1 v (.ret (.ok 0, { s e.1 with chem := (E.delete (s e.1).chem e.2.2).1 })))
    (k' := fun v => (M.bind (M.recv e.1 .packed (match v with | .ints (a :: _) => a | _ => 0 : Int).toNat)
      (fun t => M.bind M.get (fun s =>
      match t with
      | .packed a b c =>
        match E.unpack s.chem (a, b, c) with
        | some x => M.bind (M.modify (fun s => { s with chem := x })) (fun _ => M.pure 0)
        | none => M.pure 1
      | _ => M.ub)) : M (St χ) Int) (s e.2.1)) ?_ ?_ ⟨rfl, by simp [z, Val.len]⟩ ?_
  · show (if e.1 = e.1 then _ else _ : M (St χ) Int) (s e.1) = _
    rw [if_pos rfl, hw.world]
    show Prog.send _ _ (Prog.send _ _ (Prog.ret (Res.ok (if (E.delete (s e.1).chem e.2.2).2 = 0 then (0 : Int)
      else 1), _))) = _
    rw [if_pos (hw.delete _ _)]
  · show (if e.2.1 = e.1 then _ else if e.2.1 = e.2.1 then _ else _ : M (St χ) Int) (s e.2.1) = _
    rw [if_neg hne', if_pos rfl, hw.world]
    rfl
  · refine Together.exchange (p := e.1) (q := e.2.1) (v := v) (ty := .packed) (c := v.len) h1 h2
      (k := .ret (.ok 0, { s e.1 with chem := (E.delete (s e.1).chem e.2.2).1 }))
      (k' := fun t => (match t with
      | .packed a b c =>
        match E.unpack (s e.2.1).chem (a, b, c) with
        | some x => M.bind (M.modify (fun s => { s with chem := x })) (fun _ => M.pure 0)
        | none => M.pure 1
      | _ => M.ub : M (St χ) Int) (s e.2.1)) ?_ ?_ ⟨rfl, Nat.le_refl _⟩ (.ret ?_)
    · simp only [if_true]
    · simp only [if_neg hne', if_true]
      rfl
    · intro p hp
      by_cases hp1 : p = e.1
      · subst hp1; simp only [if_true]
      · by_cases hp2 : p = e.2.1
        · subst hp2
          simp only [if_neg hne', if_true, v]
          have : E.unpack (s e.2.1).chem (y.1, y.2.1, y.2.2) = some x := hx
          rw [this]; rfl
        · simp only [if_neg hp1, if_neg hp2]
          show (if p = e.1 then _ else if p = e.2.1 then _ else M.pure 0 : M (St χ) Int) (s p) = _
          rw [if_neg hp1, if_neg hp2]; rfl

theorem tog_moveUZ (s : Nat → St χ) {e : Nat × Nat × List Nat} (h1 : e.1 < n)
    (h2 : e.2.1 < n) (hne : e.1 ≠ e.2.1) :
    ∃ c : Nat → χ, Tog n (fun p => moveUZ E p e) s (fun _ => .ok ()) (fun p => { s p with chem := c p }) := by
  let x := E.uzTake (s e.1).chem e.2.2
  refine ⟨fun p => if p = e.1 then x.1 else if p = e.2.1 then E.uzPut (s p).chem x.2
    else (s p).chem, ?_⟩
  have hne' : e.2.1 ≠ e.1 := fun h => hne h.symm
  refine Together.exchange (p := e.1) (q := e.2.1) (v := .ints [(x.2.length : Int)]) (ty := .int) (c := 1)
    h1 h2 (k := .send e.2.1 (.chars x.2) (.ret (.ok (), { s e.1 with chem := x.1 })))
    (k' := fun v => (M.bind (M.recv e.1 .chr (match v with | .ints (a :: _) => a | _ => 0 : Int).toNat)
      (fun t => M.modify (fun s => { s with
        chem := E.uzPut s.chem (match t with | .chars t => t | _ => []) })) : M (St χ) Unit) (s e.2.1)) ?_ ?_
    ⟨rfl, by simp [Val.len]⟩ ?_
  · show (if e.1 = e.1 then _ else _ : M (St χ) Unit) (s e.1) = _
    rw [if_pos rfl]; rfl
  · show (if e.2.1 = e.1 then _ else if e.2.1 = e.2.1 then _ else _ : M (St χ) Unit) (s e.2.1) = _
    rw [if_neg hne', if_pos rfl]; rfl
  · refine Together.exchange (p := e.1) (q := e.2.1) (v := .chars x.2) (ty := .chr) (c := x.2.length) h1 h2
      (k := .ret (.ok (), { s e.1 with chem := x.1 }))
      (k' := fun t => .ret (.ok (), { s e.2.1 with
        chem := E.uzPut (s e.2.1).chem (match t with | .chars t => t | _ => []) })) ?_ ?_ ⟨rfl, by simp [Val.len]⟩ (.ret ?_)
    · simp only [if_true]
    · simp only [if_neg hne', if_true]
      rfl
    · intro p hp
      by_cases hp1 : p = e.1
      · subst hp1; simp only [if_true]
      · by_cases hp2 : p = e.2.1
        · subst hp2
          simp only [if_neg hne', if_true]
        · simp only [if_neg hp1, if_neg hp2]
          show (if p = e.1 then _ else if p = e.2.1 then _ else M.pure () : M (St χ) Unit) (s p) = _
          rw [if_neg hp1, if_neg hp2]; rfl

theorem fin_movePair (hw : Works n E) (s : Nat → St χ) {e : Nat × Nat × List Nat} (h1 : e.1 < n)
    (h2 : e.2.1 < n) (hne : e.1 ≠ e.2.1) (ha : ∀ p < n, (s p).sh = (s 0).sh) {T : (Nat → St χ) → Prop} :
    Fin' n (fun p => movePair E p e) s (fun _ s' => ∀ p < n, Soft (s p) (s' p)) T := by
  obtain ⟨c, hc⟩ := tog_moveData hw s h1 h2 hne
  obtain ⟨d, hd⟩ := tog_moveUZ (E := E) (fun p => ({ s p with chem := c p } : St χ)) h1 h2 hne
  unfold movePair
  refine Fin'.bind (Q := fun a s1 => (a = fun _ => 0) ∧ (fun p => ({ s p with chem := c p } : St χ)) = s1)
    (Fin'.of_tog hc ⟨rfl, rfl⟩) ?_
  rintro _ _ ⟨rfl, rfl⟩
  refine Fin'.get_bind ?_
  by_cases hu : (s 0).sh.set.partUZ = true
  · refine Fin'.congr (s := fun p => ({ s p with chem := c p } : St χ)) (m := fun p =>
      M.bind (moveUZ E p e) (fun _ => M.pure ())) ?_ ?_
    · refine Fin'.bind (Q := fun _ s1 => (fun p => ({ s p with chem := d p } : St χ)) = s1)
        (Fin'.of_tog hd rfl) ?_
      rintro _ _ rfl
      exact Fin'.pure (a := fun _ => ()) (fun p _ => soft_chem _ _)
    · intro p hp
      rw [if_pos (by show (s p).sh.set.partUZ = true; rw [ha p hp]; exact hu)]
      rfl
  · refine Fin'.congr (s := fun p => ({ s p with chem := c p } : St χ)) (m := fun p => M.pure ()) ?_ ?_
    · exact Fin'.pure (a := fun _ => ()) (fun p _ => soft_chem _ _)
    · intro p hp
      rw [if_neg (by show ¬ (s p).sh.set.partUZ = true; rw [ha p hp]; exact hu)]
      rfl

theorem fin_moveAll (hw : Works n E) (hn : 0 < n) {l : List (Nat × Nat × List Nat)}
    (hl : ∀ e ∈ l, e.1 < n ∧ e.2.1 < n ∧ e.1 ≠ e.2.1) {T : (Nat → St χ) → Prop} :
    ∀ s : Nat → St χ, (∀ p < n, (s p).sh = (s 0).sh) →
      Fin' n (fun p => moveAll E p l) s (fun _ s' => ∀ p < n, Soft (s p) (s' p)) T := by
  induction l with
  | nil => intro s _; exact Fin'.pure (a := fun _ => ()) (fun p _ => Soft.refl _)
  | cons e l ih =>
    intro s ha
    obtain ⟨h1, h2, h3⟩ := hl e (by simp)
    refine Fin'.bind (fin_movePair hw s h1 h2 h3 ha) ?_
    intro _ s1 k1
    refine (ih (fun e he => hl e (by simp [he])) s1 ?_).mono ?_ (fun _ h => h)
    · intro p hp; rw [(k1 p hp).sh, (k1 0 hn).sh]; exact ha p hp
    · intro _ s2 k2 p hp; exact (k1 p hp).trans (k2 p hp)

/-! ## New ranges and distribution of the values -/

theorem fin_bcastRanges (new : Nat → List Nat) (hn : 0 < n) (hl : (new 0).length = n) (s : Nat → St χ)
    {T : (Nat → St χ) → Prop} :
    Fin' n (fun p => bcastRanges p n (new p)) s (fun a s' => (a = fun _ => new 0) ∧ s = s') T := by
  unfold bcastRanges
  refine Fin'.bind (Q := fun a s1 => (a = fun _ => (List.range n).map (fun i =>
    ((((new 0).take i).sum : Nat) : Int))) ∧ s = s1)
    (Fin'.of_tog (Tog.bcastInts _ (by simp)) ⟨by simp, rfl⟩) ?_
  rintro _ _ ⟨rfl, rfl⟩
  refine Fin'.bind (Q := fun a s1 => (a = fun _ => (List.range n).map (fun i =>
    ((((new 0).take (i + 1)).sum : Nat) : Int) - 1)) ∧ s = s1)
    (Fin'.of_tog (Tog.bcastInts _ (by simp)) ⟨by simp, rfl⟩) ?_
  rintro _ _ ⟨rfl, rfl⟩
  refine Fin'.pure (a := fun _ => _) ⟨?_, rfl⟩
  funext _
  refine List.ext_getElem (by simp [hl]) ?_
  intro i h1 h2
  simp only [List.getElem_map, List.getElem_zip, List.getElem_range]
  have : ((new 0).take (i + 1)).sum = ((new 0).take i).sum + (new 0)[i] := by
    rw [List.take_add_one, List.sum_append, List.getElem?_eq_getElem h2]
    simp
  rw [this]
  omega

/-- After new ranges, with the properties `done` distributed again. -/
structure Half (n : Nat) (s : Nat → St χ) (new : List Nat) (done : List Arr) (s' : Nat → St χ) : Prop where
  sh : ∀ p < n, (s' p).sh = { (s 0).sh with cells := new }
  rootArr : ∀ a, Kept a → (s' 0).rootArr a = (s 0).rootArr a
  maskRoot : (s' 0).maskRoot = (s 0).maskRoot
  saved : ∀ p < n, (s' p).saved = (s p).saved
  oldSat : (s' 0).oldSatRoot = (s 0).oldSatRoot
  mask : ∀ p < n, PieceOf (s 0).sh.back new p (s 0).maskRoot (s' p).maskWork
  done : ∀ a ∈ done, ∀ p < n, PieceOf (s 0).sh.back new p ((s 0).rootArr a) ((s' p).workArr a)

theorem Half.lay {s s' : Nat → St χ} {new : List Nat} {done : List Arr} (h : Half n s new done s')
    (hn : 0 < n) (hr : Ready n s) (hd : Divides n (s 0).sh.back.length new) : Lay n s' where
  agree := fun p hp => by rw [h.sh p hp, h.sh 0 hn]
  divides := by rw [h.sh 0 hn]; exact hd
  back := by rw [h.sh 0 hn]; exact hr.back

theorem fin_rescatter {s s' : Nat → St χ} {new : List Nat} {done : List Arr} (h : Half n s new done s')
    (hn : 0 < n) (hr : Ready n s) (hd : Divides n (s 0).sh.back.length new) {a : Arr} (ha : Kept a)
    {T : (Nat → St χ) → Prop} :
    Fin' n (fun p => rescatter p a) s' (fun _ s2 => Half n s new (a :: done) s2) T := by
  unfold rescatter
  refine Fin'.get_bind ?_
  obtain ⟨x, h1, h2⟩ := tog_scatter (h.lay hn hr hd) hn (fun p => (s' p).rootArr a)
    (by rw [h.sh 0 hn, h.rootArr a ha]; exact hr.arrays a ha)
  refine Fin'.bind (Q := fun b s1 => b = x ∧ s' = s1) (Fin'.of_tog h1 ⟨rfl, rfl⟩) ?_
  rintro b _ ⟨rfl, rfl⟩
  refine .ok (fun _ => ()) (fun p => { s' p with workArr := Function.update (s' p).workArr a (b p) })
    (Tog.loc (fun _ _ => rfl)) ⟨h.sh, h.rootArr, h.maskRoot, h.saved, h.oldSat, h.mask, ?_⟩
  intro c hc p hp
  dsimp only
  by_cases hca : c = a
  · subst hca
    rw [Function.update_self, ← h.rootArr c ha]
    have := h2 p hp
    rw [h.sh 0 hn] at this
    exact this
  · rw [Function.update_of_ne hca]
    exact h.done c ((List.mem_cons.1 hc).resolve_left hca) p hp

/-- What `RunCells` may change. -/
structure Moved (n : Nat) (s s' : Nat → St χ) : Prop where
  sh : ∃ cells ck, Divides n (s 0).sh.back.length cells ∧
    ∀ p < n, (s' p).sh = { (s 0).sh with cells := cells, check := ck }
  rootArr : ∀ a, Kept a → (s' 0).rootArr a = (s 0).rootArr a
  maskRoot : (s' 0).maskRoot = (s 0).maskRoot
  saved : ∀ p < n, (s' p).saved = (s p).saved
  oldSat : (s 0).sh.set.partUZ = true → (s 0).sh.nxyz ≤ (s' 0).oldSatRoot.length
  pieces : Pieces n s → Pieces n s'

theorem Moved.soft {s s' : Nat → St χ} (h : Ready n s) (hn : 0 < n) (hk : ∀ p < n, Soft (s p) (s' p)) :
    Moved n s s' where
  sh := ⟨(s 0).sh.cells, (s 0).sh.check, h.divides, fun p hp => by rw [(hk p hp).sh, h.agree p hp]⟩
  rootArr := (hk 0 hn).rootArr
  maskRoot := (hk 0 hn).maskRoot
  saved := fun p hp => (hk p hp).saved
  oldSat := by rw [(hk 0 hn).oldSat]; exact h.oldSat
  pieces := fun hp => pieces_kin hp (g := (s 0).sh.set) (ck := (s 0).sh.check) (fun p hp => by
    have := (hk p hp).kin
    rw [h.agree p hp] at this
    exact this)

theorem Moved.trans {s s1 s2 : Nat → St χ} (hn : 0 < n) (h : Moved n s s1) (k : Moved n s1 s2) :
    Moved n s s2 := by
  obtain ⟨c1, k1, d1, e1⟩ := h.sh
  obtain ⟨c2, k2, d2, e2⟩ := k.sh
  have e10 := e1 0 hn
  refine ⟨⟨c2, k2, ?_, ?_⟩, fun a ha => (k.rootArr a ha).trans (h.rootArr a ha),
    k.maskRoot.trans h.maskRoot, fun p hp => (k.saved p hp).trans (h.saved p hp), ?_,
    fun hp => k.pieces (h.pieces hp)⟩
  · rw [e10] at d2; exact d2
  · intro p hp; rw [e2 p hp, e10]
  · intro hu
    have := k.oldSat (by rw [e10]; exact hu)
    rw [e10] at this
    exact this

theorem ready_moved {s s' : Nat → St χ} (h : Ready n s) (hn : 0 < n) (hk : Moved n s s') : Ready n s' := by
  obtain ⟨c1, k1, d1, e1⟩ := hk.sh
  have e0 := e1 0 hn
  refine ⟨?_, ?_, ?_, ?_, ?_, ?_, ?_, ?_, ?_⟩
  · intro p hp; rw [e1 p hp, e0]
  · rw [e0]; exact d1
  · rw [e0]; exact h.back
  · intro a ha; rw [e0, hk.rootArr a ha]; exact h.arrays a ha
  · rw [e0, hk.maskRoot]; exact h.mask
  · intro p hp; rw [hk.saved p hp, e0]; exact h.keys p hp
  · rw [e0]; exact h.savedDivides
  · rw [e0]; exact h.mode
  · rw [e0]; exact hk.oldSat

theorem post_moved {s s' : Nat → St χ} (hn : 0 < n) (hk : Moved n s s') : Post n .runCells s s' := by
  obtain ⟨c1, k1, d1, e1⟩ := hk.sh
  have e0 := e1 0 hn
  exact ⟨by rw [e0]; rfl, by rw [e0], by rw [e0], by rw [e0], hk.rootArr, fun _ => hk.pieces⟩

theorem Half.moved {s s' : Nat → St χ} {new : List Nat} {done : List Arr} (h : Half n s new done s')
    (hn : 0 < n) (hr : Ready n s) (hd : Divides n (s 0).sh.back.length new)
    (hall : ∀ a, Kept a → a ∈ done) : Moved n s s' where
  sh := ⟨new, (s 0).sh.check, hd, h.sh⟩
  rootArr := h.rootArr
  maskRoot := h.maskRoot
  saved := h.saved
  oldSat := by rw [h.oldSat]; exact hr.oldSat
  pieces := fun _ p hp => by
    rw [h.sh 0 hn]
    refine ⟨fun a ha => ?_, ?_⟩
    · rw [h.rootArr a ha]; exact h.done a (hall a ha) p hp
    · rw [h.maskRoot]; exact h.mask p hp

theorem fin_redistribute (hw : Works n E) {s : Nat → St χ} (h : Ready n s) (hn : 0 < n) (new : List Nat)
    (hd : Divides n (s 0).sh.back.length new) {T : (Nat → St χ) → Prop} :
    Fin' n (fun p => redistribute E p new) s (fun _ s' => Moved n s s') T := by
  unfold redistribute
  refine Fin'.get_bind ?_
  refine Fin'.congr (s := s) (m := fun p => M.bind (moveAll E p (transferPairs (s 0).sh.cells new
      (s 0).sh.back.length)) (fun _ =>
    M.bind (M.modify (fun s => { s with sh := { s.sh with cells := new } })) (fun _ =>
    if movedCells (s 0).sh.cells new (s 0).sh.back.length ≠ [] then
      M.bind M.get (fun s => M.bind (scatterNchemInt p s.maskRoot) (fun m =>
      M.bind (M.modify (fun s => { s with maskWork := m })) (fun _ =>
      M.bind (rescatter p .density) (fun _ => M.bind (rescatter p .porosity) (fun _ =>
      M.bind (rescatter p .rv) (fun _ => M.bind (rescatter p .saturation) (fun _ =>
      M.bind M.get (fun s => if s.sh.set.partUZ = true then
        M.bind (scatterNchem p s.oldSatRoot) (fun d => M.modify (fun s => { s with oldSatWork := d }))
        else M.pure ()))))))))
    else M.pure ()))) ?_ ?_
  · refine Fin'.bind (fin_moveAll hw hn (fun e he => transferPairs_ranks h.divides hd he) s h.agree) ?_
    intro _ s1 k1
    have hr1 := ready_soft h hn k1
    refine Fin'.modify_bind ?_
    by_cases hm : movedCells (s 0).sh.cells new (s 0).sh.back.length = []
    · simp only [ne_eq, hm, not_true_eq_false, if_false]
      have := same_of_unmoved h.divides hd hm
      subst this
      refine Fin'.pure (a := fun _ => ()) (Moved.soft h hn ?_)
      intro p hp
      refine (k1 p hp).trans ⟨?_, fun _ _ => rfl, fun _ _ => rfl, rfl, rfl, rfl, rfl⟩
      show { (s1 p).sh with cells := (s 0).sh.cells } = (s1 p).sh
      rw [(k1 p hp).sh, h.agree p hp]
    · simp only [ne_eq, hm, not_false_eq_true, if_true]
      refine Fin'.get_bind ?_
      have hsh : ∀ p < n, ({ (s1 p).sh with cells := new } : Shared) = { (s 0).sh with cells := new } := by
        intro p hp; rw [(k1 p hp).sh, h.agree p hp]
      have hl2 : Lay n (fun p => ({ s1 p with sh := { (s1 p).sh with cells := new } } : St χ)) :=
        ⟨fun p hp => (hsh p hp).trans (hsh 0 hn).symm, by
          show Divides n (s1 0).sh.back.length new; rw [(k1 0 hn).sh]; exact hd, hr1.back⟩
      obtain ⟨x, h1, h2⟩ := tog_scatterInt hl2 hn (fun p => (s1 p).maskRoot) hr1.mask
      refine Fin'.bind (Q := fun b s2 => b = x ∧
        (fun p => ({ s1 p with sh := { (s1 p).sh with cells := new } } : St χ)) = s2)
        (Fin'.of_tog h1 ⟨rfl, rfl⟩) ?_
      rintro b _ ⟨rfl, rfl⟩
      refine Fin'.modify_bind ?_
      have hh : Half n s new [] (fun p => ({ s1 p with sh := { (s1 p).sh with cells := new }
                                                       maskWork := b p } : St χ)) := by
        refine ⟨hsh, fun a ha => (k1 0 hn).rootArr a ha, (k1 0 hn).maskRoot, fun p hp => (k1 p hp).saved,
          (k1 0 hn).oldSat, ?_, fun a ha => absurd ha (by simp)⟩
        intro p hp
        have := h2 p hp
        dsimp only at this ⊢
        rw [(k1 0 hn).maskRoot, (k1 0 hn).sh] at this
        exact this
      have kd : Kept .density := ⟨nofun, nofun⟩
      have kp : Kept .porosity := ⟨nofun, nofun⟩
      have kr : Kept .rv := ⟨nofun, nofun⟩
      have ks : Kept .saturation := ⟨nofun, nofun⟩
      refine Fin'.bind (fin_rescatter hh hn h hd kd) ?_
      intro _ s2 h2
      refine Fin'.bind (fin_rescatter h2 hn h hd kp) ?_
      intro _ s3 h3
      refine Fin'.bind (fin_rescatter h3 hn h hd kr) ?_
      intro _ s4 h4
      refine Fin'.bind (fin_rescatter h4 hn h hd ks) ?_
      intro _ s5 h5
      refine Fin'.get_bind ?_
      have hmv := h5.moved hn h hd (by
        intro a ha
        cases a with
        | pressure => exact absurd rfl ha.1
        | temperature => exact absurd rfl ha.2
        | _ => simp)
      have hr5 := ready_moved h hn hmv
      by_cases hu : (s 0).sh.set.partUZ = true
      · obtain ⟨y, h6, _⟩ := tog_scatter (h5.lay hn h hd) hn (fun p => (s5 p).oldSatRoot)
          (hr5.oldSat (by rw [h5.sh 0 hn]; exact hu))
        refine Fin'.congr (s := s5) (m := fun p => M.bind (scatterNchem p (s5 p).oldSatRoot)
          (fun d => M.modify (fun s => { s with oldSatWork := d }))) ?_ ?_
        · refine Fin'.bind (Q := fun b s6 => b = y ∧ s5 = s6) (Fin'.of_tog h6 ⟨rfl, rfl⟩) ?_
          rintro b _ ⟨rfl, rfl⟩
          refine .ok (fun _ => ()) (fun p => { s5 p with oldSatWork := b p }) (Tog.loc (fun _ _ => rfl))
            (hmv.trans hn (Moved.soft hr5 hn (fun p hp =>
              ⟨rfl, fun _ _ => rfl, fun _ _ => rfl, rfl, rfl, rfl, rfl⟩)))
        · intro p hp
          rw [if_pos (by rw [h5.sh p hp]; exact hu)]
      · refine Fin'.congr (s := s5) (m := fun p => M.pure ()) (Fin'.pure (a := fun _ => ()) hmv) ?_
        intro p hp
        rw [if_neg (by rw [h5.sh p hp]; exact hu)]
  · intro p hp
    rw [h.agree p hp]
    rfl

end Verif.Lockstep
