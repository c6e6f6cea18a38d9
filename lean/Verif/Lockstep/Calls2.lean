import Verif.Lockstep.Calls

/-!
# Lemmas: values of cells, databases and input
-/

namespace Verif.Lockstep

open Spec

variable {n : Nat} {χ α β σ : Type} {E : Engine χ}

theorem tell_worker {p : Nat} (h0 : p ≠ 0) (m : Method) (f : Unit → M (St χ) α) (s : St χ) :
    M.bind (tell p m) f s = f () s := by
  simp only [tell, M.onRoot, if_neg h0]
  rfl

theorem mapM_some_of {γ δ : Type} {f : γ → Option δ} {l : List γ} {P : δ → Prop}
    (h : ∀ x ∈ l, ∃ y, f x = some y ∧ P y) : ∃ r, l.mapM f = some r ∧ r.length = l.length ∧
      ∀ y ∈ r, P y := by
  induction l with
  | nil => exact ⟨[], rfl, rfl, nofun⟩
  | cons x l ih =>
    obtain ⟨y, h1, h2⟩ := h x (by simp)
    obtain ⟨r, h3, h4, h5⟩ := ih (fun z hz => h z (by simp [hz]))
    refine ⟨y :: r, ?_, by simp [h4], ?_⟩
    · simp only [List.mapM_cons, h1, h3]; rfl
    · intro z hz
      rcases List.mem_cons.1 hz with rfl | hz
      · exact h2
      · exact h5 z hz

theorem flatten_length_const {γ : Type} {l : List (List γ)} {k : Nat} (h : ∀ x ∈ l, x.length = k) :
    l.flatten.length = l.length * k := by
  induction l with
  | nil => simp
  | cons x l ih =>
    rw [List.flatten_cons, List.length_append, ih (fun y hy => h y (by simp [hy])), h x (by simp),
      List.length_cons, Nat.add_mul, Nat.one_mul, Nat.add_comm]

theorem sum_map_mul (l : List Nat) (k : Nat) : (l.map (· * k)).sum = l.sum * k := by
  induction l with
  | nil => simp
  | cons x l ih => simp only [List.map_cons, List.sum_cons, ih, Nat.add_mul]

theorem getD_map_mul (l : List Nat) (k p : Nat) : (l.map (· * k)).getD p 0 = l.getD p 0 * k := by
  by_cases hp : p < l.length
  · simp [List.getD_eq_getElem?_getD, hp]
  · simp [List.getD_eq_getElem?_getD, List.getElem?_eq_none (Nat.not_lt.1 hp)]

theorem callOk_setConcentrations {s : Nat → St χ} (h : Ready n s) (hn : 0 < n) (t : List ℚ)
    (ht : (s 0).sh.ncomp * (s 0).sh.nxyz ≤ t.length) : CallOk E n (.setConcentrations t) s := by
  obtain ⟨r, h1, h2, h3⟩ := mapM_some_of (l := (s 0).sh.back)
    (f := fun (b : List Nat) => b.head?.bind (fun j =>
      (List.range (s 0).sh.ncomp).mapM (fun k => t[k * (s 0).sh.nxyz + j]?)))
    (P := fun y => y.length = (s 0).sh.ncomp) (by
      intro b hb
      obtain ⟨j, hj, hlt⟩ := h.back b hb
      obtain ⟨y, e1, e2, _⟩ := mapM_some_of (l := List.range (s 0).sh.ncomp)
        (f := fun k => t[k * (s 0).sh.nxyz + j]?) (P := fun _ => True) (by
          intro k hk
          have hk := List.mem_range.1 hk
          have : k * (s 0).sh.nxyz + j < t.length := by
            have : (k + 1) * (s 0).sh.nxyz ≤ (s 0).sh.ncomp * (s 0).sh.nxyz :=
              Nat.mul_le_mul_right _ hk
            rw [Nat.add_mul] at this
            omega
          exact ⟨_, List.getElem?_eq_getElem this, trivial⟩)
      exact ⟨y, by rw [hj]; exact e1, by simpa using e2⟩)
  have hlen : r.flatten.length = (s 0).sh.back.length * (s 0).sh.ncomp := by
    rw [flatten_length_const h3, h2]
  let cs := (s 0).sh.cells.map (· * (s 0).sh.ncomp)
  have hcs : cs.length = n := by simp [cs, h.divides.1]
  let x : Nat → List ℚ := fun p => (r.flatten.drop (cs.take p).sum).take (cs.getD p 0)
  have hx : ∀ p < n, (parts cs r.flatten)[p]? = some (x p) ∧
      (x p).length = (s 0).sh.count p * (s 0).sh.ncomp := by
    intro p hp
    have hp' : p < cs.length := by omega
    refine ⟨parts_get hp', ?_⟩
    have := take_sum_add hp'
    have e : cs.sum = r.flatten.length := by
      rw [hlen, ← h.divides.2]; exact sum_map_mul _ _
    have e2 : cs.getD p 0 = (s 0).sh.count p * (s 0).sh.ncomp := getD_map_mul _ _ _
    simp only [x, List.length_take, List.length_drop]
    omega
  refine CallOk.soft h hn .setConcentrations nofun (fun p => M.bind (M.scattervDbls
      (if p = 0 then parts cs r.flatten else []) ((s 0).sh.count p * (s 0).sh.ncomp)) (fun d =>
      M.bind (M.modify (fun s => { s with chem := E.setConc p s d })) (fun _ => M.pure IRM.ok)))
    (s1 := fun p => (s p).clear) ?_ ?_ (fun _ => rfl) nofun ?_
  · show Tells _ ((match Option.map List.flatten (List.mapM (fun (b : List Nat) => b.head?.bind (fun j =>
      (List.range (s 0).sh.ncomp).mapM (fun k => t[k * (s 0).sh.nxyz + j]?))) (s 0).sh.back) with
      | none => M.ub
      | some c => _ : M (St χ) IRM) (s 0).clear) _
    rw [h1]
    exact ⟨_, rfl, rfl⟩
  · intro p hp h0
    simp only [dispatch, setConcentrations]
    show (if p = 0 then _ else M.bind (M.scattervDbls [] ((s p).sh.count p * (s p).sh.ncomp)) _ :
      M (St χ) IRM) (s p).clear = _
    rw [if_neg h0, if_neg h0, h.agree p hp]
    rfl
  · refine Fin'.bind (Q := fun a s1 => a = x ∧ s1 = fun p => (s p).clear) ?_ ?_
    · refine Fin'.of_tog (Tog.scattervDbls _ _ x ?_) ⟨rfl, rfl⟩
      intro p hp
      exact hx p hp
    · rintro _ _ ⟨rfl, rfl⟩
      refine Fin'.modify_bind (Fin'.pure (a := fun _ => IRM.ok) ?_)
      intro p hp
      exact ⟨rfl, fun _ _ => rfl, fun _ _ => rfl, rfl, rfl, rfl, rfl⟩

theorem flatten_range_length {γ : Type} (k c : Nat) (f : Nat → Nat → γ) :
    (((List.range k).map (fun l => (List.range c).map (fun i => f l i))).flatten).length = k * c := by
  have := flatten_length_const (l := (List.range k).map (fun l => (List.range c).map (fun i => f l i)))
    (k := c) (by
      intro x hx
      obtain ⟨l, _, rfl⟩ := List.mem_map.1 hx
      simp)
  simpa using this

theorem getElem?_of_length {l : List Nat} {p : Nat} (hp : p < l.length) :
    l[p]? = some (l.getD p 0) := by
  simp [List.getD_eq_getElem?_getD, hp]

/-- `GetConcentrations` after the broadcast of the method. -/
def getConcBody (E : Engine χ) (p : Nat) : M (St χ) IRM :=
  M.bind M.get (fun s => M.bind (M.gathervDbls (s.sh.cells.map (· * s.sh.ncomp))
    ((List.range (s.sh.count p)).map (fun l =>
      (List.range s.sh.ncomp).map (fun i => E.conc p s (s.sh.start p + l) i))).flatten) (fun buf =>
    M.bind (M.onRoot p (M.modify (fun s => { s with out := buf }))) (fun _ => M.pure IRM.ok)))

theorem fin_getConc {s : Nat → St χ} (h : Lay n s) :
    Fin' n (fun p => getConcBody E p) s (fun a s' => (a = fun _ => IRM.ok) ∧ ∀ p < n, Mild (s p) (s' p))
      (fun _ => False) := by
  unfold getConcBody
  refine Fin'.get_bind ?_
  refine Fin'.bind (Q := fun _ s1 => s = s1) ?_ ?_
  · refine Fin'.of_tog (Tog.gathervDbls _ _ ?_) rfl
    intro p hp
    have hp' : p < (s 0).sh.cells.length := by rw [h.divides.1]; exact hp
    rw [flatten_range_length, h.agree p hp, getElem?_of_length (by simpa using hp'), getD_map_mul]
    rfl
  · rintro a _ rfl
    refine .ok (fun _ => .ok) (fun p => if p = 0 then { s p with out := a p } else s p) (Tog.loc ?_)
      ⟨rfl, ?_⟩
    · intro p hp
      by_cases h0 : p = 0
      · subst h0; rfl
      · simp only [M.onRoot, if_neg h0]; rfl
    · intro p _
      by_cases h0 : p = 0
      · simp only [h0, if_true]; exact ⟨_, _, _, rfl⟩
      · simp only [h0, if_false]; exact Mild.refl _

theorem dispatch_getConc {p : Nat} (h0 : p ≠ 0) (s : St χ) :
    dispatch E n p .getConcentrations s = getConcBody E p s.clear :=
  tell_worker h0 _ _ _

theorem callOk_getConcentrations {s : Nat → St χ} (h : Ready n s) (hn : 0 < n) :
    CallOk E n .getConcentrations s := by
  refine CallOk.soft h hn .getConcentrations nofun (getConcBody E) (s1 := fun p => (s p).clear)
    ⟨_, rfl, rfl⟩ (fun p _ h0 => dispatch_getConc h0 _) (fun _ => rfl) nofun ?_
  refine (fin_getConc (lay_soft (lay_of_ready h) hn (fun p _ => Soft.clear _))).mono ?_ nofun
  intro a s' hq p hp
  exact (Soft.clear _).trans (hq.2 p hp).soft

/-- `GetDensityCalculated` and the like after the broadcast of the method. -/
def readBody (E : Engine χ) (p : Nat) (r : Reading) : M (St χ) IRM :=
  M.bind M.get (fun s => M.bind (gatherNchem p (E.mine p r s) (readOld r s)) (fun d =>
    M.bind (M.onRoot p (M.modify (fun s => { s with out := d }))) (fun _ =>
    M.bind (M.modify (St.store r (E.mine p r s) d)) (fun _ => M.pure IRM.ok))))

theorem Soft.store (r : Reading) (mine d : List ℚ) {s s1 : St χ} (k : Soft s s1) : Soft s (s1.store r mine d) := by
  have hup : ∀ (b : Arr), ¬ Kept b → Soft s ({ s1 with workArr := Function.update s1.workArr b mine
                                                       rootArr := Function.update s1.rootArr b d } : St χ) := by
    intro b hb
    refine ⟨k.sh, ?_, ?_, k.maskRoot, k.maskWork, k.saved, k.oldSat⟩
    · intro a ha
      have : a ≠ b := by rintro rfl; exact hb ha
      show Function.update _ b _ a = _
      rw [Function.update_of_ne this]; exact k.rootArr a ha
    · intro a ha
      have : a ≠ b := by rintro rfl; exact hb ha
      show Function.update _ b _ a = _
      rw [Function.update_of_ne this]; exact k.workArr a ha
  cases r with
  | pressure => exact hup .pressure (fun hk => hk.1 rfl)
  | temperature => exact hup .temperature (fun hk => hk.2 rfl)
  | _ => exact k

theorem store_out (r : Reading) (mine d : List ℚ) (s : St χ) : (s.store r mine d).out = s.out := by
  cases r <;> rfl

/-- What the root has after processes read values of their cells, each of its own kind. -/
def readOut (E : Engine χ) (n : Nat) (rr : Nat → Reading) (s : Nat → St χ) : List ℚ :=
  spread (s 0).sh.back ((List.range n).map (fun p => E.mine p (rr p) (s p))).flatten
    ((readOld (rr 0) (s 0)).take (s 0).sh.nxyz ++
      List.replicate ((s 0).sh.nxyz - (readOld (rr 0) (s 0)).length) 0)

theorem fin_read {s : Nat → St χ} (h : Lay n s) (rr : Nat → Reading) :
    Fin' n (fun p => readBody E p (rr p)) s (fun a s' => (a = fun _ => IRM.ok) ∧
      (∀ p < n, Soft (s p) (s' p)) ∧ (s' 0).out = readOut E n rr s) (fun _ => False) := by
  unfold readBody
  refine Fin'.get_bind ?_
  refine Fin'.bind (Q := fun a s1 => s = s1 ∧ a 0 = readOut E n rr s) ?_ ?_
  · unfold gatherNchem
    refine Fin'.get_bind ?_
    refine Fin'.bind (Q := fun a s1 => s = s1 ∧
      a 0 = ((List.range n).map (fun p => E.mine p (rr p) (s p))).flatten) ?_ ?_
    · refine Fin'.of_tog (Tog.gathervDbls _ _ ?_) ⟨rfl, if_pos rfl⟩
      intro p hp
      have hp' : p < (s 0).sh.cells.length := by rw [h.divides.1]; exact hp
      unfold Engine.mine
      rw [List.length_map, List.length_range, getElem?_of_length hp']
      show some _ = some ((s p).sh.count p)
      rw [h.agree p hp]; rfl
    · rintro a _ ⟨rfl, ha⟩
      refine .ok (fun p => if p = 0 then spread (s p).sh.back (a p)
        ((readOld (rr p) (s p)).take (s p).sh.nxyz ++ List.replicate ((s p).sh.nxyz -
        (readOld (rr p) (s p)).length) 0) else readOld (rr p) (s p)) s (Tog.loc ?_) ⟨rfl, ?_⟩
      · intro p hp
        by_cases h0 : p = 0
        · subst h0; rfl
        · rw [if_neg h0, if_neg h0]; rfl
      · dsimp only
        rw [if_pos rfl, ha]; rfl
  · rintro a _ ⟨rfl, ha⟩
    refine Fin'.bind (Q := fun _ s1 => (∀ p < n, Soft (s p) (s1 p)) ∧ (s1 0).out = readOut E n rr s) ?_ ?_
    · refine .ok (fun _ => ()) (fun p => if p = 0 then { s p with out := a p } else s p) (Tog.loc ?_) ⟨?_, ?_⟩
      · intro p hp
        by_cases h0 : p = 0
        · subst h0; rfl
        · simp only [M.onRoot, if_neg h0]; rfl
      · intro p _
        by_cases h0 : p = 0
        · simp only [h0, if_true]
          exact ⟨rfl, fun _ _ => rfl, fun _ _ => rfl, rfl, rfl, rfl, rfl⟩
        · simp only [h0, if_false]; exact Soft.refl _
      · exact ha
    · rintro _ s1 ⟨hs1, ho⟩
      refine Fin'.modify_bind (Fin'.pure (a := fun _ => IRM.ok) ⟨rfl, fun p hp => (hs1 p hp).store _ _ _, ?_⟩)
      rw [store_out, ho]

theorem tells_read (s : St χ) (r : Reading) :
    Tells (.getReading r.asked) (perform E n (.getReading r) s) (readBody E 0 r s.clear) :=
  ⟨_, rfl, rfl⟩

theorem dispatch_read {p : Nat} (h0 : p ≠ 0) (s : St χ) (r : Reading) :
    dispatch E n p (.getReading r) s = readBody E p r s.clear :=
  tell_worker h0 _ _ _

/-- The kind of values a process reads when the root reads `r`. -/
def kinds (r : Reading) (p : Nat) : Reading := if p = 0 then r else r.asked

theorem callOk_getReading {s : Nat → St χ} (h : Ready n s) (hn : 0 < n) (r : Reading) :
    CallOk E n (.getReading r) s := by
  refine CallOk.soft h hn (.getReading r.asked) nofun (fun p => readBody E p (kinds r p))
    (s1 := fun p => (s p).clear) (tells_read _ _)
    (fun p _ h0 => by rw [dispatch_read h0, kinds, if_neg h0]) (fun _ => rfl) nofun ?_
  refine (fin_read (lay_soft (lay_of_ready h) hn (fun p _ => Soft.clear _)) _).mono ?_ nofun
  intro a s' hq p hp
  exact (Soft.clear _).trans (hq.2.1 p hp)

/-- The root receives a list of doubles of every worker. -/
theorem fin_collect (hn : 0 < n) (s : Nat → St χ) (mine : Nat → Nat → List ℚ) (want : Nat → Nat → Nat)
    (hw : ∀ i < n, (mine i i).length ≤ want 0 i) {T : (Nat → St χ) → Prop} :
    Fin' n (fun p => M.loop ((List.range n).drop 1) (fun i =>
      if p = i then M.send 0 (.dbls (mine p i))
      else if p = 0 then M.bind (M.recv i .dbl (want p i)) (fun v =>
        M.modify (fun s => { s with out := s.out ++ (match v with | .dbls d => d | _ => []) }))
      else M.pure ())) s (fun _ s' => ∀ p, Mild (s p) (s' p)) T := by
  refine Fin'.loop (I := fun s' => ∀ p, Mild (s p) (s' p)) _ ?_ s (fun p => Mild.refl _)
  intro i hi s1 h1
  have hin : i < n := List.mem_range.1 (List.mem_of_mem_drop hi)
  have h0 : i ≠ 0 := by
    rintro rfl
    have hi' : (0 : Nat) ∈ (List.range n).drop 1 := hi
    rw [List.range_eq_range', List.drop_range'] at hi'
    simp at hi'
  have h0' : 0 ≠ i := fun h => h0 h.symm
  refine .ok (fun _ => ()) (fun p => if p = 0 then { s1 p with out := (s1 p).out ++ mine i i } else s1 p) ?_ ?_
  · refine Together.exchange (p := i) (q := 0) (v := .dbls (mine i i)) (ty := .dbl) (c := want 0 i) hin hn
      (k := .ret (.ok (), s1 i))
      (k' := fun v => .ret (.ok (), { s1 0 with out := (s1 0).out ++ (match v with | .dbls d => d | _ => []) }))
      ?_ ?_ ⟨rfl, hw i hin⟩ (.ret ?_)
    · dsimp only; rw [if_pos rfl]; rfl
    · dsimp only; rw [if_neg h0', if_pos rfl]; rfl
    · intro p _
      by_cases hpi : p = i
      · subst hpi; simp only [if_pos, if_neg h0]
      · by_cases hp : p = 0
        · subst hp; simp only [if_neg h0', if_pos]
        · simp only [if_neg hpi, if_neg hp]; rfl
  · intro p
    refine (h1 p).trans ?_
    by_cases hp : p = 0
    · simp only [hp, if_true]; exact ⟨_, _, _, rfl⟩
    · simp only [hp, if_false]; exact Mild.refl _

/-- Values of the species in the cells of a process. -/
def speciesOf (E : Engine χ) (s : St χ) (p : Nat) : List ℚ :=
  ((List.range s.sh.nspec).map (fun i =>
    (List.range (s.sh.count p)).map (fun l => E.species s.chem (s.sh.start p + l) i))).flatten

/-- `GetSpeciesConcentrations` after the broadcast of the method. -/
def getSpeciesBody (E : Engine χ) (n p : Nat) : M (St χ) IRM :=
  M.bind M.get (fun s => if s.sh.set.flags .speciesSaveOn = true then
    M.bind (M.onRoot p (M.modify (fun s' => { s' with out := speciesOf E s 0 }))) (fun _ =>
    M.bind (M.loop ((List.range n).drop 1) (fun i =>
      if p = i then M.send 0 (.dbls (speciesOf E s i))
      else if p = 0 then M.bind (M.recv i .dbl (s.sh.nspec * s.sh.count i)) (fun v =>
        M.modify (fun s => { s with out := s.out ++ (match v with | .dbls d => d | _ => []) }))
      else M.pure ())) (fun _ => M.pure IRM.ok))
    else M.bind (M.onRoot p (M.modify (fun s => { s with out := [] }))) (fun _ => M.pure IRM.ok))

theorem fin_onRoot {s : Nat → St χ} (f : St χ → St χ) (hf : ∀ s, Mild s (f s)) {T : (Nat → St χ) → Prop} :
    Fin' n (fun p => M.onRoot p (M.modify f)) s (fun _ s' => ∀ p < n, Mild (s p) (s' p)) T := by
  refine .ok (fun _ => ()) (fun p => if p = 0 then f (s p) else s p) (Tog.loc ?_) ?_
  · intro p hp
    by_cases h0 : p = 0
    · subst h0; rfl
    · simp only [M.onRoot, if_neg h0]; rfl
  · intro p _
    by_cases h0 : p = 0
    · simp only [h0, if_true]; exact hf _
    · simp only [h0, if_false]; exact Mild.refl _

theorem fin_getSpecies {s : Nat → St χ} (h : Lay n s) (hn : 0 < n) :
    Fin' n (fun p => getSpeciesBody E n p) s
      (fun a s' => (a = fun _ => IRM.ok) ∧ ∀ p < n, Mild (s p) (s' p)) (fun _ => False) := by
  unfold getSpeciesBody
  refine Fin'.get_bind ?_
  by_cases hf : (s 0).sh.set.flags .speciesSaveOn = true
  · refine Fin'.congr (s := s) (m := fun p =>
      M.bind (M.onRoot p (M.modify (fun s' => { s' with out := speciesOf E (s 0) 0 }))) (fun _ =>
      M.bind (M.loop ((List.range n).drop 1) (fun i =>
        if p = i then M.send 0 (.dbls (speciesOf E (s p) i))
        else if p = 0 then M.bind (M.recv i .dbl ((s p).sh.nspec * (s p).sh.count i)) (fun v =>
          M.modify (fun s => { s with out := s.out ++ (match v with | .dbls d => d | _ => []) }))
        else M.pure ())) (fun _ => M.pure IRM.ok))) ?_ ?_
    · refine Fin'.bind (Q := fun _ s' => ∀ p < n, Mild (s p) (s' p)) (fin_onRoot _ (fun s => ⟨_, _, _, rfl⟩)) ?_
      intro _ s1 h1
      refine Fin'.bind (Q := fun _ s' => ∀ p < n, Mild (s p) (s' p)) ?_ ?_
      · refine (fin_collect hn s1 (fun p i => speciesOf E (s p) i)
          (fun p i => (s p).sh.nspec * (s p).sh.count i) ?_).mono ?_ (fun _ hh => hh)
        · intro i hi
          show (speciesOf E (s i) i).length ≤ _
          unfold speciesOf
          rw [flatten_range_length, h.agree i hi]
        · intro _ s' h2 p hp
          exact (h1 p hp).trans (h2 p)
      · intro _ s2 h2
        exact Fin'.pure (a := fun _ => IRM.ok) ⟨rfl, h2⟩
    · intro p hp
      rw [if_pos (by rw [h.agree p hp]; exact hf)]
      by_cases h0 : p = 0
      · subst h0; rfl
      · simp only [M.onRoot, if_neg h0]
  · refine Fin'.congr (s := s) (m := fun p =>
      M.bind (M.onRoot p (M.modify (fun s => { s with out := [] }))) (fun _ => M.pure IRM.ok)) ?_ ?_
    · refine Fin'.bind (Q := fun _ s' => ∀ p < n, Mild (s p) (s' p)) (fin_onRoot _ (fun s => ⟨_, _, _, rfl⟩)) ?_
      intro _ s1 h1
      exact Fin'.pure (a := fun _ => IRM.ok) ⟨rfl, h1⟩
    · intro p hp
      rw [if_neg (by rw [h.agree p hp]; exact hf)]

theorem dispatch_getSpecies {p : Nat} (h0 : p ≠ 0) (s : St χ) :
    dispatch E n p .getSpecies s = getSpeciesBody E n p s.clear :=
  tell_worker h0 _ _ _

theorem callOk_getSpecies {s : Nat → St χ} (h : Ready n s) (hn : 0 < n) :
    CallOk E n .getSpecies s := by
  refine CallOk.soft h hn .getSpecies nofun (getSpeciesBody E n) (s1 := fun p => (s p).clear)
    ⟨_, rfl, rfl⟩ (fun p _ h0 => dispatch_getSpecies h0 _) (fun _ => rfl) nofun ?_
  refine (fin_getSpecies (lay_soft (lay_of_ready h) hn (fun p _ => Soft.clear _)) hn).mono ?_ nofun
  intro a s' hq p hp
  exact (Soft.clear _).trans (hq.2 p hp).soft

theorem callOk_getErrorString {s : Nat → St χ} (h : Ready n s) (hn : 0 < n) :
    CallOk E n .getErrorString s := by
  refine CallOk.soft h hn .getErrorString nofun (fun p => M.bind (M.loop ((List.range n).drop 1) (fun i =>
    if p = i then M.bind M.get (fun s => M.bind (M.send 0 (.ints [(s.errs.length : Int)])) (fun _ =>
      if s.errs ≠ [] then M.send 0 (.chars s.errs) else M.pure ()))
    else if p = 0 then M.bind (M.recv i .int 1) (fun v =>
      if (match v with | .ints (a :: _) => a | _ => 0 : Int) > 0 then
        M.bind (M.recv i .chr (match v with | .ints (a :: _) => a | _ => 0 : Int).toNat) (fun t =>
        errorMessage (match t with | .chars t => t | _ => []))
      else M.pure ())
    else M.pure ())) (fun _ => M.pure IRM.ok)) (s1 := s) ⟨_, rfl, rfl⟩
    (fun p _ h0 => tell_worker h0 _ _ _) (fun _ => rfl) nofun ?_
  refine Fin'.bind (Q := fun _ s' => ∀ p, Mild (s p) (s' p)) ?_ (fun _ s1 h1 =>
    Fin'.pure (a := fun _ => IRM.ok) (fun p _ => (h1 p).soft))
  refine Fin'.loop (I := fun s' => ∀ p, Mild (s p) (s' p)) _ ?_ s (fun p => Mild.refl _)
  intro i hi s1 h1
  have hin : i < n := List.mem_range.1 (List.mem_of_mem_drop hi)
  have h0 : i ≠ 0 := by
    rintro rfl
    have hi' : (0 : Nat) ∈ (List.range n).drop 1 := hi
    rw [List.range_eq_range', List.drop_range'] at hi'
    simp at hi'
  have h0' : 0 ≠ i := fun h => h0 h.symm
  by_cases he : (s1 i).errs = []
  · refine .ok (fun _ => ()) s1 ?_ h1
    refine Together.exchange (p := i) (q := 0) (v := .ints [((s1 i).errs.length : Int)]) (ty := .int)
      (c := 1) hin hn (k := .ret (.ok (), s1 i))
      (k' := fun v => (if (match v with | .ints (a :: _) => a | _ => 0 : Int) > 0 then
        M.bind (M.recv i .chr (match v with | .ints (a :: _) => a | _ => 0 : Int).toNat) (fun t =>
        errorMessage (match t with | .chars t => t | _ => []))
      else M.pure () : M (St χ) Unit) (s1 0)) ?_ ?_ ⟨rfl, by simp [Val.len]⟩ (.ret ?_)
    · dsimp only
      rw [if_pos rfl]
      show Prog.send 0 (.ints [((s1 i).errs.length : Int)]) ((if (s1 i).errs ≠ [] then
        M.send 0 (.chars (s1 i).errs) else M.pure () : M (St χ) Unit) (s1 i)) = _
      rw [if_neg (fun hh => hh he)]; rfl
    · dsimp only; rw [if_neg h0', if_pos rfl]; rfl
    · intro p _
      by_cases hpi : p = i
      · subst hpi; simp only [if_pos]
      · by_cases hp : p = 0
        · subst hp; simp only [if_neg h0', if_pos, he]; rfl
        · simp only [if_neg hpi, if_neg hp]; rfl
  · refine .ok (fun _ => ()) (fun p => if p = 0 then { s1 p with errs := (s1 p).errs ++ (s1 i).errs }
      else s1 p) ?_ ?_
    · have hpos : ((s1 i).errs.length : Int) > 0 := by
        have := List.length_pos_iff.2 he
        omega
      refine Together.exchange (p := i) (q := 0) (v := .ints [((s1 i).errs.length : Int)]) (ty := .int)
        (c := 1) hin hn (k := M.send 0 (.chars (s1 i).errs) (s1 i))
        (k' := fun v => (if (match v with | .ints (a :: _) => a | _ => 0 : Int) > 0 then
          M.bind (M.recv i .chr (match v with | .ints (a :: _) => a | _ => 0 : Int).toNat) (fun t =>
          errorMessage (match t with | .chars t => t | _ => []))
        else M.pure () : M (St χ) Unit) (s1 0)) ?_ ?_ ⟨rfl, by simp [Val.len]⟩ ?_
      · dsimp only
        rw [if_pos rfl]
        show Prog.send 0 (.ints [((s1 i).errs.length : Int)]) ((if (s1 i).errs ≠ [] then
          M.send 0 (.chars (s1 i).errs) else M.pure () : M (St χ) Unit) (s1 i)) = _
        rw [if_pos he]
      · dsimp only; rw [if_neg h0', if_pos rfl]; rfl
      · refine Together.exchange (p := i) (q := 0) (v := .chars (s1 i).errs) (ty := .chr)
          (c := (s1 i).errs.length) hin hn (k := .ret (.ok (), s1 i))
          (k' := fun t => errorMessage (match t with | .chars t => t | _ => []) (s1 0)) ?_ ?_
          ⟨rfl, by simp [Val.len]⟩ (.ret ?_)
        · simp only [if_pos]; rfl
        · simp only [if_neg h0', if_pos]
          rw [if_pos hpos]; rfl
        · intro p _
          by_cases hpi : p = i
          · subst hpi; simp only [if_pos, if_neg h0]
          · by_cases hp : p = 0
            · subst hp; simp only [if_neg h0', if_pos]; rfl
            · simp only [if_neg hpi, if_neg hp]; rfl
    · intro p
      refine (h1 p).trans ?_
      by_cases hp : p = 0
      · simp only [hp, if_true]; exact ⟨_, _, _, rfl⟩
      · simp only [hp, if_false]; exact Mild.refl _

end Verif.Lockstep
