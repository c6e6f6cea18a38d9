import Verif.Components.Lemmas

/-!
# C27-C29, C72, C73: what `FindComponents` finds
-/

namespace Verif.Components

open Verif.OMap

/-! ## C27 -/

theorem newComps_spec {s : State} {old : List Name}
    (hc : s.comps = fixedNames s.h2o ++ old ∨ (s.comps = [] ∧ old = [])) (el : List Name) :
    ∃ tail, newComps s el = fixedNames s.h2o ++ tail ∧ OSet.Sorted tail ∧
      ∀ x, x ∈ tail ↔ x ∈ old ∨ x ∈ el := by
  have hd : s.comps.drop (if s.h2o then 4 else 3) = old := by
    rcases hc with h | ⟨h, h'⟩
    · rw [h]; cases s.h2o <;> simp [fixedNames]
    · rw [h, h']; simp
  refine ⟨_, rfl, ?_, ?_⟩
  · exact OSet.sorted_insAll (OSet.sorted_insAll List.Pairwise.nil _) _
  · intro x
    simp only [hd]
    rw [OSet.mem_insAll, OSet.mem_insAll]
    simp

/-- The state after a history of calls with an unchanged H2O setting. -/
theorem calls_spec {s : State} (hs : s.Paired) (ws : List Source) (hw : ∀ w ∈ ws, w.Paired)
    (old : List Name) (hc : s.comps = fixedNames s.h2o ++ old ∨ (s.comps = [] ∧ old = []))
    (hsort : OSet.Sorted old) :
    ∃ s' tail, calls s ws = .ok s' ∧ s'.Paired ∧ s'.h2o = s.h2o ∧
      (s'.comps = fixedNames s.h2o ++ tail ∨ (ws = [] ∧ s'.comps = [] ∧ tail = [])) ∧
      OSet.Sorted tail ∧ ∀ x, x ∈ tail ↔ x ∈ old ∨ ∃ w ∈ ws, x ∈ w.elements := by
  induction ws generalizing s old with
  | nil =>
    refine ⟨s, old, rfl, hs, rfl, ?_, hsort, by simp⟩
    rcases hc with h | ⟨h, h'⟩
    · exact .inl h
    · exact .inr ⟨rfl, h, h'⟩
  | cons w ws ih =>
    obtain ⟨n, s1, h1, h2, h3, h4, -⟩ := findComponents_spec hs (hw w List.mem_cons_self)
    obtain ⟨t1, e1, e2, e3⟩ := newComps_spec hc w.elements
    rw [e1] at h4
    obtain ⟨s', tail, g1, g2, g3, g4, g5, g6⟩ := ih h2
      (fun w' h => hw w' (List.mem_cons_of_mem _ h)) t1 (.inl (by rw [h4, h3])) e2
    refine ⟨s', tail, ?_, g2, g3.trans h3, .inl ?_, g5, ?_⟩
    · unfold calls at g1 ⊢
      rw [List.foldlM_cons, h1]
      exact g1
    · rcases g4 with g | ⟨g, g', g''⟩
      · rw [g, h3]
      · subst g g''
        have : s1.comps = [] := by
          have : calls s1 [] = .ok s1 := rfl
          rw [this] at g1
          cases g1
          exact g'
        rw [this] at h4
        cases h : s.h2o <;> simp [h, fixedNames] at h4
    · intro x
      rw [g6, e3]
      simp only [List.exists_mem_cons_iff]
      constructor
      · rintro ((h | h) | h)
        · exact .inl h
        · exact .inr (.inl h)
        · exact .inr (.inr h)
      · rintro (h | h | h)
        · exact .inl (.inl h)
        · exact .inl (.inr h)
        · exact .inr h

/-- **C27.** After any number of calls (at least one), failing or not, the components are H2O (if
it is a component), H, O and Charge in this order, then in strictly increasing order exactly the
elements that any of the calls found. No call reads out of bounds. -/
theorem components_spec (b : Bool) (ws : List Source) (h0 : ws ≠ []) (hw : ∀ w ∈ ws, w.Paired) :
    ∃ s tail, calls { State.new with h2o := b } ws = .ok s ∧
      s.comps = (if b then ["H2O".toList] else []) ++
        ["H".toList, "O".toList, "Charge".toList] ++ tail ∧
      tail.Pairwise (· < ·) ∧ ∀ x, x ∈ tail ↔ ∃ w ∈ ws, x ∈ w.elements := by
  obtain ⟨s, tail, h1, -, -, h4, h5, h6⟩ := calls_spec (paired_new b) ws hw []
    (.inr ⟨rfl, rfl⟩) List.Pairwise.nil
  refine ⟨s, tail, h1, ?_, h5, by simpa using h6⟩
  rcases h4 with h | ⟨h, -⟩
  · rw [h]; cases b <;> rfl
  · exact absurd h h0

/-- **C27.** A component stays a component. -/
theorem components_kept (b : Bool) (ws ws' : List Source) (h0 : ws ≠ [])
    (hw : ∀ w ∈ ws, w.Paired) (hw' : ∀ w ∈ ws', w.Paired) {s s' : State}
    (h : calls { State.new with h2o := b } ws = .ok s)
    (h' : calls s ws' = .ok s') {c : Name} (hc : c ∈ s.comps) : c ∈ s'.comps := by
  obtain ⟨s1, t1, a1, a2, -, a4⟩ := components_spec b ws h0 hw
  rw [h] at a1
  cases a1
  have hw2 : ∀ w ∈ ws ++ ws', w.Paired := by
    intro w hm
    rcases List.mem_append.mp hm with hm | hm
    · exact hw w hm
    · exact hw' w hm
  obtain ⟨s2, t2, b1, b2, -, b4⟩ := components_spec b (ws ++ ws') (by simp [h0]) hw2
  unfold calls at h h' b1
  rw [List.foldlM_append, h, Out.ok_bind, h'] at b1
  cases b1
  rw [a2] at hc
  rw [b2]
  rcases List.mem_append.mp hc with hc | hc
  · exact List.mem_append_left _ hc
  · refine List.mem_append_right _ ((b4 c).mpr ?_)
    obtain ⟨w, hm, hx⟩ := (a4 c).mp hc
    exact ⟨w, List.mem_append_left _ hm, hx⟩

/-- **C27.** No component is listed twice, elements being none of H2O, H, O and Charge. -/
theorem components_nodup (b : Bool) (ws : List Source) (h0 : ws ≠ []) (hw : ∀ w ∈ ws, w.Paired)
    (hr : ∀ w ∈ ws, ∀ x ∈ w.elements,
      x ≠ "H2O".toList ∧ x ≠ "H".toList ∧ x ≠ "O".toList ∧ x ≠ "Charge".toList)
    {s : State} (h : calls { State.new with h2o := b } ws = .ok s) : s.comps.Nodup := by
  obtain ⟨s1, t1, a1, a2, a3, a4⟩ := components_spec b ws h0 hw
  rw [h] at a1
  cases a1
  rw [a2]
  refine List.nodup_append.mpr ⟨by cases b <;> decide, OSet.nodup a3, ?_⟩
  intro x hx y hy e
  subst e
  obtain ⟨w, hm, hx'⟩ := (a4 x).mp hy
  obtain ⟨r1, r2, r3, r4⟩ := hr w hm x hx'
  cases b <;> simp at hx <;> simp_all

/-- **C27.** The value returned is the number of components, unless the call failed. -/
theorem components_count {s : State} {w : Source} (hs : s.Paired) (hw : w.Paired) {n : Int}
    {s' : State} (h : findComponents s w = .ok (n, s')) : n = s'.comps.length ∨ n = -7 := by
  obtain ⟨n1, s1, h1, -, -, -, h5⟩ := findComponents_spec hs hw
  rw [h] at h1
  cases h1
  rcases h5 with ⟨h, -⟩ | ⟨h, -⟩
  · exact .inr h
  · exact .inl h

/-! ## C28 -/

/-- An all-empty source with the given elements. -/
def elementsOnly (el : List Name) : Source :=
  ⟨el, [], [], [], [], [], [], [], [], [], fun _ => [], fun _ => [], true, true, fun _ => true,
    fun _ => true⟩

/-- **C28 violated.** With H2O as a component, then without: Charge is listed twice. Without H2O,
then with it: a component found before is lost when its definition is no longer there. -/
theorem toggle_violated :
    (∃ s s', calls State.new [elementsOnly ["Ca".toList]] = .ok s ∧
      calls (setComponentH2O s false) [elementsOnly ["Ca".toList]] = .ok s' ∧
      s'.comps = ["H", "O", "Charge", "Ca", "Charge"].map String.toList) ∧
    (∃ s s', calls (setComponentH2O State.new false) [elementsOnly ["Ca".toList, "Cl".toList]]
        = .ok s ∧
      calls (setComponentH2O s true) [elementsOnly ["Na".toList]] = .ok s' ∧
      s'.comps = ["H2O", "H", "O", "Charge", "Cl", "Na"].map String.toList) := by
  refine ⟨⟨_, _, rfl, rfl, ?_⟩, ⟨_, _, rfl, rfl, ?_⟩⟩ <;> decide

/-- **C28, partial.** Turning H2O on between two calls does no harm if all elements found before
are still defined; the setting can be changed freely before the first call. Missing: turning H2O
off, which duplicates Charge (`toggle_violated`). -/
theorem toggle_partial (ws : List Source) (h0 : ws ≠ []) (hw : ∀ w ∈ ws, w.Paired) {s : State}
    (h : calls { State.new with h2o := false } ws = .ok s) (w : Source) (hwp : w.Paired)
    (hall : ∀ w' ∈ ws, ∀ x ∈ w'.elements, x ∈ w.elements) :
    ∃ s' tail, calls (setComponentH2O s true) [w] = .ok s' ∧
      s'.comps = ["H2O", "H", "O", "Charge"].map String.toList ++ tail ∧
      tail.Pairwise (· < ·) ∧ ∀ x, x ∈ tail ↔ x ∈ w.elements := by
  obtain ⟨s1, t1, g1, g2, g3, g4, g5, g6⟩ := calls_spec (paired_new false) ws hw []
    (.inr ⟨rfl, rfl⟩) List.Pairwise.nil
  rw [h] at g1
  cases g1
  have hc : s.comps = fixedNames false ++ t1 := by
    rcases g4 with g | ⟨g, -⟩
    · exact g
    · exact absurd g h0
  have hp : State.Paired (setComponentH2O s true) := g2
  obtain ⟨n, s', k1, k2, k3, k4, -⟩ := findComponents_spec hp hwp
  refine ⟨s', OSet.insAll (OSet.insAll [] (s.comps.drop 4)) w.elements, ?_, ?_, ?_, ?_⟩
  · unfold calls
    simp only [List.foldlM_cons, List.foldlM_nil, k1, Out.ok_bind, bind_pure]
  · rw [k4]; rfl
  · exact OSet.sorted_insAll (OSet.sorted_insAll List.Pairwise.nil _) _
  · intro x
    rw [OSet.mem_insAll, OSet.mem_insAll]
    constructor
    · rintro ((hx | hx) | hx)
      · simp at hx
      · rw [hc] at hx
        have : x ∈ t1 := by
          have e : (fixedNames false ++ t1).drop 4 = t1.drop 1 := by simp [fixedNames]
          rw [e] at hx
          exact List.mem_of_mem_drop hx
        rcases (g6 x).mp this with h' | ⟨w', h1, h2⟩
        · simp at h'
        · exact hall w' h1 x h2
      · exact hx
    · exact fun hx => .inr hx

/-! ## C29 -/

/-- A source with solid solutions only. -/
def solidsOnly (comps names : List Name) : Source :=
  { elementsOnly [] with ssComps := comps, ssNames := names }

/-- **C29 violated.** Solid solution A with component a; after the first call, solid solution B
with component b is defined. The second call lists b under A. -/
theorem ss_names_violated :
    ∃ s s', calls State.new [solidsOnly ["a".toList] ["A".toList]] = .ok s ∧
      calls s [solidsOnly ["a".toList, "b".toList] ["A".toList, "B".toList]] = .ok s' ∧
      s'.ssComps = ["a".toList, "b".toList] ∧ s'.ssNames = ["A".toList, "A".toList] := by
  refine ⟨_, _, rfl, rfl, ?_, ?_⟩ <;> decide

theorem fresh_all {known cs : List Name} (hn : cs.Nodup) (hd : ∀ c ∈ cs, c ∉ known) :
    fresh known cs = cs := by
  induction cs generalizing known with
  | nil => rfl
  | cons c cs ih =>
    obtain ⟨h1, h2⟩ := List.nodup_cons.mp hn
    simp only [fresh, if_neg (hd c List.mem_cons_self)]
    rw [ih h2]
    intro x hx hx'
    rcases (OSet.mem_ins _ _ _).mp hx' with e | e
    · subst e; exact h1 hx
    · exact hd x (List.mem_cons_of_mem _ hx) e

theorem fresh_congr {k k' : List Name} (h : ∀ x, x ∈ k ↔ x ∈ k') (l : List Name) :
    fresh k l = fresh k' l := by
  induction l generalizing k k' with
  | nil => rfl
  | cons a l ih =>
    simp only [fresh]
    by_cases ha : a ∈ k
    · rw [if_pos ha, if_pos ((h a).mp ha)]
      exact ih h
    · rw [if_neg ha, if_neg (fun h' => ha ((h a).mpr h'))]
      congr 1
      apply ih
      intro x
      rw [OSet.mem_ins, OSet.mem_ins, h x]

theorem fresh_append (known xs ys : List Name) :
    fresh known (xs ++ ys) = fresh known xs ++ fresh (OSet.insAll known xs) ys := by
  induction xs generalizing known with
  | nil => simp [fresh, OSet.insAll]
  | cons c xs ih =>
    simp only [List.cons_append, fresh]
    split
    · rename_i hc
      rw [ih]
      congr 1
      apply fresh_congr
      intro x
      rw [OSet.mem_insAll, OSet.mem_insAll]
      simp only [List.mem_cons]
      constructor
      · rintro (h | h)
        · exact .inl h
        · exact .inr (.inr h)
      · rintro (h | h | h)
        · exact .inl h
        · subst h; exact .inl hc
        · exact .inr h
    · rw [ih]; rfl

theorem fresh_known {known cs : List Name} (h : ∀ c ∈ cs, c ∈ known) : fresh known cs = [] := by
  induction cs with
  | nil => rfl
  | cons c cs ih =>
    simp only [fresh, if_pos (h c List.mem_cons_self)]
    exact ih (fun x hx => h x (List.mem_cons_of_mem _ hx))

theorem mem_zip_map {l : List Name} {f : Name → Name} {c n : Name} :
    (c, n) ∈ l.zip (l.map f) ↔ c ∈ l ∧ n = f c := by
  induction l with
  | nil => simp
  | cons a l ih =>
    simp only [List.map_cons, List.zip_cons_cons, List.mem_cons, Prod.mk.injEq, ih]
    constructor
    · rintro (⟨h1, h2⟩ | ⟨h1, h2⟩)
      · subst h1; exact ⟨.inl rfl, h2⟩
      · exact ⟨.inr h1, h2⟩
    · rintro ⟨h1 | h1, h2⟩
      · subst h1; exact .inl ⟨rfl, h2⟩
      · exact .inr ⟨h1, h2⟩

/-- **C29, partial.** If the worker's list has first components that are new (each once) and then
only components known before the call, every component listed after the call has the name it had
before, if it had one, and otherwise the name given with it in the worker's list. In particular
this holds for the first call and for repeated calls. Missing: a known component listed before a
new one (`ss_names_violated`). -/
theorem ss_names_partial {s : State} {w : Source} (hs : s.Paired) (hw : w.Paired)
    (hsn : s.ssComps.Nodup)
    (fr kn : List Name) (hl : w.ssComps = fr ++ kn) (hfr : fr.Nodup)
    (hnew : ∀ c ∈ fr, c ∉ s.ssComps) (hknown : ∀ c ∈ kn, c ∈ s.ssComps) {n : Int} {s' : State}
    (h : findComponents s w = .ok (n, s')) (hn : n ≠ -7) (c m : Name) :
    (c, m) ∈ s'.ssComps.zip s'.ssNames ↔
      (c, m) ∈ s.ssComps.zip s.ssNames ∨
        (c, m) ∈ fr.zip w.ssNames := by
  obtain ⟨n1, s1, h1, -, -, -, h5⟩ := findComponents_spec hs hw
  rw [h] at h1
  cases h1
  rcases h5 with ⟨h5, -⟩ | ⟨-, -, -, -, -, ⟨p, q, hp, hq, e1, e2⟩, -⟩
  · exact absurd h5 hn
  have hp1 : ∀ x, x ∈ p.1 ↔ x ∈ s.ssComps := by
    intro x
    rw [hp, addPairs_fst, OSet.mem_insAll, map_fst_zip (by rw [hs.2.2.2])]
    simp
  have hf : fresh p.1 w.ssComps = fr := by
    rw [hl, fresh_append, fresh_all hfr (fun c hc hc' => hnew c hc ((hp1 c).mp hc')),
      fresh_known, List.append_nil]
    intro c hc
    rw [OSet.mem_insAll]
    exact .inl ((hp1 c).mpr (hknown c hc))
  rw [hf] at hq
  have hlen : fr.length ≤ w.ssNames.length := by
    have : w.ssComps.length = w.ssNames.length := hw.2
    rw [hl, List.length_append] at this
    omega
  have hfst : (s.ssComps.zip s.ssNames).map Prod.fst = s.ssComps := map_fst_zip (by rw [hs.2.2.2])
  have hfst' : (fr.zip w.ssNames).map Prod.fst = fr := map_fst_zip hlen
  rw [e1, e2, mem_zip_map]
  have hq1 : c ∈ q.1 ↔ c ∈ s.ssComps ∨ c ∈ fr := by
    rw [hq, addPairs_fst, OSet.mem_insAll, hp1, hfst']
  rw [hq1]
  have hfind : find q.2 c = match lastName (fr.zip w.ssNames) c with
      | some n => some n
      | none => lastName (s.ssComps.zip s.ssNames) c := by
    rw [hq, addPairs_find]
    cases lastName (fr.zip w.ssNames) c with
    | some n => rfl
    | none =>
      simp only
      rw [hp, addPairs_find]
      cases lastName (s.ssComps.zip s.ssNames) c <;> rfl
  constructor
  · rintro ⟨hc, hm⟩
    unfold nameOf at hm
    rw [hfind] at hm
    cases hA : lastName (fr.zip w.ssNames) c with
    | some x =>
      rw [hA] at hm
      simp only at hm
      subst hm
      exact .inr (lastName_mem hA)
    | none =>
      rw [hA] at hm
      simp only at hm
      cases hB : lastName (s.ssComps.zip s.ssNames) c with
      | some x =>
        rw [hB] at hm
        simp only at hm
        subst hm
        exact .inl (lastName_mem hB)
      | none =>
        rw [lastName_none, hfst] at hB
        rw [lastName_none, hfst'] at hA
        exact absurd hc (by simp [hA, hB])
  · rintro (hm | hm)
    · have hc : c ∈ s.ssComps := by
        rw [← hfst]; exact List.mem_map_of_mem (f := Prod.fst) hm
      refine ⟨.inl hc, ?_⟩
      have hA : lastName (fr.zip w.ssNames) c = none := by
        rw [lastName_none, hfst']
        exact fun h => hnew c h hc
      unfold nameOf
      rw [hfind, hA]
      simp only
      rw [lastName_of_mem (by rw [hfst]; exact hsn) hm]
    · have hc : c ∈ fr := by
        rw [← hfst']; exact List.mem_map_of_mem (f := Prod.fst) hm
      refine ⟨.inr hc, ?_⟩
      unfold nameOf
      rw [hfind, lastName_of_mem (by rw [hfst']; exact hfr) hm]

/-- A case that meets the hypotheses of `ss_names_partial`. -/
example : ∃ s', findComponents { State.new with ssComps := ["c".toList], ssNames := ["C".toList] }
    (solidsOnly ["b".toList, "a".toList, "c".toList] ["B".toList, "A".toList, "C".toList])
      = .ok (4, s') ∧ s'.ssComps = ["a".toList, "b".toList, "c".toList] ∧
    s'.ssNames = ["A".toList, "B".toList, "C".toList] := by
  refine ⟨_, rfl, ?_, ?_⟩ <;> decide

/-! ## C72 -/

theorem newList_sorted (o n : List Name) : OSet.Sorted (newList o n) :=
  OSet.sorted_insAll (OSet.sorted_insAll List.Pairwise.nil _) _

theorem mem_newList (o n : List Name) (x : Name) : x ∈ newList o n ↔ x ∈ o ∨ x ∈ n := by
  unfold newList
  rw [OSet.mem_insAll, OSet.mem_insAll]
  simp

theorem newList_again (o n : List Name) : newList (newList o n) n = newList o n := by
  apply OSet.ext (newList_sorted _ _) (newList_sorted _ _)
  intro x
  simp only [mem_newList]
  constructor
  · rintro (h | h)
    · exact h
    · exact .inr h
  · exact fun h => .inl h

/-- Elements that contribute nothing can be left out. -/
theorem flatMap_filter {β : Type} (l l' : List Name) (f : Name → List β) (hl : OSet.Sorted l)
    (hl' : OSet.Sorted l') (h1 : ∀ x ∈ l', x ∈ l) (h2 : ∀ x ∈ l, x ∉ l' → f x = []) :
    l.flatMap f = l'.flatMap f := by
  have e : l' = l.filter (fun x => decide (x ∈ l')) := by
    apply OSet.ext hl' (hl.sublist List.filter_sublist)
    intro x
    rw [List.mem_filter]
    exact ⟨fun hx => ⟨h1 x hx, by simpa using hx⟩, fun hx => by simpa using hx.2⟩
  have g : ∀ (m : List Name), (∀ x ∈ m, x ∈ l) →
      m.flatMap f = (m.filter (fun x => decide (x ∈ l'))).flatMap f := by
    intro m
    induction m with
    | nil => intro _; rfl
    | cons a m ih =>
      intro hm
      have := ih (fun x hx => hm x (List.mem_cons_of_mem _ hx))
      rw [List.flatMap_cons, List.filter_cons, this]
      by_cases ha : a ∈ l'
      · simp [ha, List.flatMap_cons]
      · simp [ha, h2 a (hm a List.mem_cons_self) ha]
  have := g l (fun x hx => hx)
  rw [← e] at this
  exact this

theorem addPairs_sorted {p : List Name × SMap Name Name} (h : OSet.Sorted p.1)
    (l : List (Name × Name)) : OSet.Sorted (addPairs p l).1 := by
  rw [addPairs_fst]; exact OSet.sorted_insAll h _

theorem lastName_append (l l' : List (Name × Name)) (t : Name) :
    lastName (l ++ l') t =
      match lastName l' t with
      | some n => some n
      | none => lastName l t := by
  induction l with
  | nil => simp only [List.nil_append, lastName]; cases lastName l' t <;> rfl
  | cons a l ih =>
    simp only [List.cons_append, lastName, ih]
    cases lastName l' t <;> rfl

/-- The name of a type, from the list of all definitions. -/
theorem find_addPairs (l : List (Name × Name)) (t : Name) :
    find (addPairs ([], []) l).2 t = lastName l t := by
  rw [addPairs_find]
  cases lastName l t <;> rfl

theorem zip_flatMap {α β γ : Type} (T : List α) (f : α → List β) (g : α → γ) (k : α → γ) :
    (T.flatMap (fun t => (f t).map (fun _ => g t))).zip
      (T.flatMap (fun t => (f t).map (fun _ => k t))) =
      T.flatMap (fun t => (f t).map (fun _ => (g t, k t))) := by
  induction T with
  | nil => rfl
  | cons a T ih =>
    simp only [List.flatMap_cons]
    rw [List.zip_append (by simp), ih]
    congr 1
    generalize f a = l
    induction l with
    | nil => rfl
    | cons b l _ => simp

theorem lastName_const {l : List (Name × Name)} {g : Name → Name} (h : ∀ p ∈ l, p.2 = g p.1)
    {t : Name} (ht : t ∈ l.map Prod.fst) : lastName l t = some (g t) := by
  cases e : lastName l t with
  | none => exact absurd ht ((lastName_none l t).mp e)
  | some n => exact congrArg some (h _ (lastName_mem e))

/-- **C72, partial.** Repeating a call that succeeded, with nothing new defined, changes none of
the lists: components, equilibrium phases, gases, kinetic reactions, solid solutions, surfaces and
exchangers. Missing: the saturation-index names, which are listed again (`repeat_violated`). -/
theorem repeat_partial {s s' s'' : State} {w : Source} (hs : s.Paired) (hw : w.Paired)
    {n n' : Int} (h : findComponents s w = .ok (n, s')) (hn : n ≠ -7)
    (h' : findComponents s' w = .ok (n', s'')) (hn' : n' ≠ -7) :
    s'' = { s' with siNames := s''.siNames } ∧ n' = n := by
  obtain ⟨n1, s1, h1, hp', hh, hc, h5⟩ := findComponents_spec hs hw
  rw [h] at h1
  cases h1
  rcases h5 with ⟨h5, -⟩ | ⟨hcnt, -, a1, a2, a3, ⟨p, q, hp, hq, e1, e2⟩, ⟨P, hP, b1, b2, b3, b4, b5⟩⟩
  · exact absurd h5 hn
  obtain ⟨n2, s2, g1, -, hh2, hc2, g5⟩ := findComponents_spec hp' hw
  rw [h'] at g1
  cases g1
  rcases g5 with ⟨g5, -⟩ | ⟨hcnt', -, a1', a2', a3', ⟨p', q', hp'', hq', e1', e2'⟩,
    ⟨P', hP', b1', b2', b3', b4', b5'⟩⟩
  · exact absurd g5 hn'
  -- components
  have c0 : s''.comps = s'.comps := by
    rw [hc2]
    obtain ⟨tl, k1, k2, k3⟩ := newComps_spec (s := s') (old :=
      OSet.insAll (OSet.insAll [] (s.comps.drop (if s.h2o then 4 else 3))) w.elements)
      (.inl (by rw [hc, hh]; rfl)) w.elements
    rw [k1, hc, hh]
    unfold newComps
    congr 1
    apply OSet.ext k2 (OSet.sorted_insAll (OSet.sorted_insAll List.Pairwise.nil _) _)
    intro x
    rw [k3, OSet.mem_insAll]
    constructor
    · rintro ((h | h) | h)
      · exact .inl h
      · exact .inr h
      · exact .inr h
    · exact fun h => .inl h
  -- solid solutions
  have hps : OSet.Sorted p.1 := by rw [hp]; exact addPairs_sorted (p := ([], [])) List.Pairwise.nil _
  have hqs : OSet.Sorted q.1 := by rw [hq]; exact addPairs_sorted hps _
  have hfst : (s'.ssComps.zip s'.ssNames).map Prod.fst = s'.ssComps :=
    map_fst_zip (by rw [hp'.2.2.2])
  have hp1 : ∀ x, x ∈ p'.1 ↔ x ∈ q.1 := by
    intro x
    rw [hp'', addPairs_fst, hfst, OSet.mem_insAll, e1]
    simp
  have hfr : fresh p'.1 w.ssComps = [] := by
    apply fresh_known
    intro c hcm
    rw [hp1, hq, addPairs_fst, OSet.mem_insAll]
    by_cases hk : c ∈ p.1
    · exact .inl hk
    · right
      rw [map_fst_zip]
      · exact (mem_fresh _ _ _).mpr ⟨hcm, hk⟩
      · have := fresh_length p.1 w.ssComps
        have : w.ssComps.length = w.ssNames.length := hw.2
        omega
  have hqq : q' = p' := by rw [hq', hfr]; rfl
  have c1 : s''.ssComps = s'.ssComps := by
    rw [e1', hqq, e1]
    exact OSet.ext (by rw [hp'']; exact addPairs_sorted (p := ([], [])) List.Pairwise.nil _) hqs hp1
  have c2 : s''.ssNames = s'.ssNames := by
    rw [e2', ← e1', c1, e2, e1]
    apply List.map_congr_left
    intro c hcm
    have : find p'.2 c = some (nameOf q.2 c) := by
      rw [hp'', find_addPairs]
      apply lastName_const (g := nameOf q.2)
      · rintro ⟨a, b⟩ hab
        rw [e1, e2, mem_zip_map] at hab
        exact hab.2
      · rw [hfst, e1]; exact hcm
    rw [hqq]
    conv_lhs => unfold nameOf
    rw [this]
  -- exchangers
  have hex1 : ∀ x, x ∈ newList s'.exNames w.exNames → x ∈ newList s.exNames w.exNames := by
    intro x hx
    rcases (mem_newList _ _ _).mp hx with h | h
    · rw [b5] at h
      simp only [List.mem_flatMap, List.mem_map] at h
      obtain ⟨t, ht, y, -, rfl⟩ := h
      exact ht
    · exact (mem_newList _ _ _).mpr (.inr h)
  have hex2 : ∀ x ∈ newList s.exNames w.exNames, x ∉ newList s'.exNames w.exNames →
      w.exSp x = [] := by
    intro x hx hx'
    rw [mem_newList, not_or, b5] at hx'
    by_contra hne
    obtain ⟨y, l, hy⟩ := List.exists_cons_of_ne_nil hne
    apply hx'.1
    rw [List.mem_flatMap]
    exact ⟨x, hx, by rw [hy]; simp⟩
  have c3 : s''.exSpecies = s'.exSpecies := by
    rw [b4', b4]
    exact (flatMap_filter _ _ _ (newList_sorted _ _) (newList_sorted _ _) hex1 hex2).symm
  have c4 : s''.exNames = s'.exNames := by
    refine b5'.trans (Eq.trans ?_ b5.symm)
    refine (flatMap_filter _ _ _ (newList_sorted _ _) (newList_sorted _ _) hex1 ?_).symm
    intro x hx hx'
    rw [hex2 x hx hx']; rfl
  -- surfaces
  have hPs : OSet.Sorted P.1 := by
    rw [hP]; exact addPairs_sorted (addPairs_sorted (p := ([], [])) List.Pairwise.nil _) _
  have hPs' : OSet.Sorted P'.1 := by
    rw [hP']; exact addPairs_sorted (addPairs_sorted (p := ([], [])) List.Pairwise.nil _) _
  have hwf : (w.surfTypes.zip w.surfNames).map Prod.fst = w.surfTypes := map_fst_zip (by rw [hw.1])
  have hsf : (s'.surfTypes.zip s'.surfNames).map Prod.fst = s'.surfTypes :=
    map_fst_zip (by rw [hp'.1, hp'.2.1])
  have hmP : ∀ x, x ∈ w.surfTypes → x ∈ P.1 := by
    intro x hx
    rw [hP, addPairs_fst, OSet.mem_insAll, hwf]
    exact .inr hx
  have hmP' : ∀ x, x ∈ P'.1 ↔ x ∈ s'.surfTypes ∨ x ∈ w.surfTypes := by
    intro x
    rw [hP', addPairs_fst, OSet.mem_insAll, addPairs_fst, OSet.mem_insAll, hwf, hsf]
    simp
  have hsu1 : ∀ x ∈ P'.1, x ∈ P.1 := by
    intro x hx
    rcases (hmP' x).mp hx with h | h
    · rw [b2] at h
      simp only [List.mem_flatMap, List.mem_map] at h
      obtain ⟨t, ht, y, -, rfl⟩ := h
      exact ht
    · exact hmP x h
  have hsu2 : ∀ x ∈ P.1, x ∉ P'.1 → w.surfSp x = [] := by
    intro x hx hx'
    rw [hmP', not_or, b2] at hx'
    by_contra hne
    obtain ⟨y, l, hy⟩ := List.exists_cons_of_ne_nil hne
    apply hx'.1
    rw [List.mem_flatMap]
    exact ⟨x, hx, by rw [hy]; simp⟩
  have c5 : s''.surfSpecies = s'.surfSpecies := by
    rw [b1', b1]
    exact (flatMap_filter _ _ _ hPs hPs' hsu1 hsu2).symm
  have c6 : s''.surfTypes = s'.surfTypes := by
    rw [b2', b2]
    refine (flatMap_filter _ _ _ hPs hPs' hsu1 ?_).symm
    intro x hx hx'
    rw [hsu2 x hx hx']; rfl
  have hzip : ∀ pr ∈ s'.surfTypes.zip s'.surfNames, pr.2 = nameOf P.2 pr.1 := by
    rw [b2, b3, zip_flatMap]
    intro pr hpr
    simp only [List.mem_flatMap, List.mem_map] at hpr
    obtain ⟨t, -, y, -, rfl⟩ := hpr
    rfl
  have hname : ∀ t ∈ P'.1, nameOf P'.2 t = nameOf P.2 t := by
    intro t ht
    have f1 : find P'.2 t = match lastName (w.surfTypes.zip w.surfNames) t with
        | some n => some n
        | none => lastName (s'.surfTypes.zip s'.surfNames) t := by
      rw [hP', addPairs_find, find_addPairs]
      cases lastName (w.surfTypes.zip w.surfNames) t <;> rfl
    have f2 : find P.2 t = match lastName (w.surfTypes.zip w.surfNames) t with
        | some n => some n
        | none => lastName (s.surfTypes.zip s.surfNames) t := by
      rw [hP, addPairs_find, find_addPairs]
      cases lastName (w.surfTypes.zip w.surfNames) t <;> rfl
    cases e : lastName (w.surfTypes.zip w.surfNames) t with
    | some m =>
      unfold nameOf
      rw [f1, f2, e]
    | none =>
      have ht' : t ∈ s'.surfTypes := by
        rcases (hmP' t).mp ht with h | h
        · exact h
        · rw [lastName_none, hwf] at e; exact absurd h e
      rw [e] at f1
      simp only at f1
      rw [lastName_const hzip (by rw [hsf]; exact ht')] at f1
      conv_lhs => unfold nameOf
      rw [f1]
  have c7 : s''.surfNames = s'.surfNames := by
    rw [b3', b3]
    have step : P'.1.flatMap (fun t => (w.surfSp t).map (fun _ => nameOf P'.2 t)) =
        P'.1.flatMap (fun t => (w.surfSp t).map (fun _ => nameOf P.2 t)) := by
      rw [List.flatMap_def, List.flatMap_def]
      congr 1
      apply List.map_congr_left
      intro t ht
      rw [hname t ht]
    rw [step]
    refine (flatMap_filter _ _ _ hPs hPs' hsu1 ?_).symm
    intro x hx hx'
    rw [hsu2 x hx hx']; rfl
  refine ⟨?_, by rw [hcnt', hcnt, c0]⟩
  rw [a1] at a1'
  rw [a2] at a2'
  rw [a3] at a3'
  rw [newList_again] at a1' a2' a3'
  obtain ⟨x1, x2, x3, x4, x5, x6, x7, x8, x9, x10, x11, x12, x13⟩ := s''
  simp only at c0 c1 c2 c3 c4 c5 c6 c7 a1' a2' a3' hh2
  subst c0 c1 c2 c3 c4 c5 c6 c7 a1' a2' a3' hh2
  rw [← a1, ← a2, ← a3]

/-- **C74.** After any history of calls the equilibrium phases, gases and kinetic reactions are
listed in strictly increasing order, and they are exactly those found by the calls that
succeeded. -/
theorem name_lists (b : Bool) {ok : List Source} {s : State}
    (h : Ran { State.new with h2o := b } ok s) :
    (s.eqPhases.Pairwise (· < ·) ∧ ∀ x, x ∈ s.eqPhases ↔ ∃ w ∈ ok, x ∈ w.eqPhases) ∧
    (s.gases.Pairwise (· < ·) ∧ ∀ x, x ∈ s.gases ↔ ∃ w ∈ ok, x ∈ w.gases) ∧
    (s.kinetics.Pairwise (· < ·) ∧ ∀ x, x ∈ s.kinetics ↔ ∃ w ∈ ok, x ∈ w.kinetics) := by
  suffices H : s.Paired ∧
      (OSet.Sorted s.eqPhases ∧ ∀ x, x ∈ s.eqPhases ↔ ∃ w ∈ ok, x ∈ w.eqPhases) ∧
      (OSet.Sorted s.gases ∧ ∀ x, x ∈ s.gases ↔ ∃ w ∈ ok, x ∈ w.gases) ∧
      (OSet.Sorted s.kinetics ∧ ∀ x, x ∈ s.kinetics ↔ ∃ w ∈ ok, x ∈ w.kinetics) from H.2
  generalize hs0 : ({ State.new with h2o := b } : State) = s0 at h
  induction h with
  | nil =>
    subst hs0
    exact ⟨paired_new b, ⟨List.Pairwise.nil, by simp [State.new]⟩,
      ⟨List.Pairwise.nil, by simp [State.new]⟩, ⟨List.Pairwise.nil, by simp [State.new]⟩⟩
  | good _ hw hf hn ih =>
    obtain ⟨i0, ⟨-, i1⟩, ⟨-, i2⟩, ⟨-, i3⟩⟩ := ih
    obtain ⟨n1, s1, h1, hp, -, -, h5⟩ := findComponents_spec i0 hw
    rw [hf] at h1
    cases h1
    rcases h5 with ⟨h5, -⟩ | ⟨-, -, a1, a2, a3, -⟩
    · exact absurd h5 hn
    rw [a1, a2, a3]
    refine ⟨hp, ⟨newList_sorted _ _, fun x => ?_⟩, ⟨newList_sorted _ _, fun x => ?_⟩,
      ⟨newList_sorted _ _, fun x => ?_⟩⟩
    · simp [mem_newList, i1, or_and_right, exists_or]
    · simp [mem_newList, i2, or_and_right, exists_or]
    · simp [mem_newList, i3, or_and_right, exists_or]
  | bad _ hw hf ih =>
    obtain ⟨i0, i1, i2, i3⟩ := ih
    obtain ⟨n1, s1, h1, hp, -, -, h5⟩ := findComponents_spec i0 hw
    rw [hf] at h1
    cases h1
    rcases h5 with ⟨-, a1, a2, a3, -⟩ | ⟨h5, -⟩
    · rw [a1, a2, a3]
      exact ⟨hp, i1, i2, i3⟩
    · omega

/-- Case: a failing call between two good ones. -/
example : ∃ s, Ran State.new
    [{ elementsOnly [] with gases := ["N2(g)".toList] },
     { elementsOnly [] with gases := ["CO2(g)".toList, "N2(g)".toList] }] s ∧
    s.gases = ["CO2(g)".toList, "N2(g)".toList] := by
  refine ⟨_, Ran.good (ok := [_]) (Ran.bad (w := { elementsOnly [] with run1 := false, gases := [[]] })
    (Ran.good (ok := []) (Ran.nil _) ⟨rfl, rfl⟩ rfl (by decide)) ⟨rfl, rfl⟩ rfl) ⟨rfl, rfl⟩ rfl
    (by decide), by decide⟩


/-- **C72 violated.** Repeating a call lists the saturation-index names again. -/
theorem repeat_violated :
    ∃ (w : Source) (s s' : State) (n n' : Int), findComponents State.new w = .ok (n, s) ∧
      findComponents s w = .ok (n', s') ∧
      s.siNames = ["Calcite".toList] ∧ s'.siNames = ["Calcite".toList, "Calcite".toList] := by
  refine ⟨{ elementsOnly [] with siNames := ["Calcite".toList] }, _, _, _, _, rfl, rfl, ?_, ?_⟩ <;>
    decide

/-! ## C73 -/

theorem triples (T : List Name) (f : Name → List Name) (g : Name → Name) {i : Nat} {sp : Name}
    (h : (T.flatMap f)[i]? = some sp) :
    ∃ t ∈ T, sp ∈ f t ∧ (T.flatMap (fun t => (f t).map (fun _ => g t)))[i]? = some (g t) ∧
      (T.flatMap (fun t => (f t).map (fun _ => t)))[i]? = some t := by
  have e1 : T.flatMap f = (T.flatMap (fun t => (f t).map (fun sp => (sp, t)))).map Prod.fst := by
    induction T with
    | nil => rfl
    | cons a T ih => simp [List.flatMap_cons, List.map_flatMap, Function.comp_def]
  have e2 : T.flatMap (fun t => (f t).map (fun _ => g t)) =
      (T.flatMap (fun t => (f t).map (fun sp => (sp, t)))).map (fun x => g x.2) := by
    simp [List.map_flatMap, Function.comp_def]
  have e3 : T.flatMap (fun t => (f t).map (fun _ => t)) =
      (T.flatMap (fun t => (f t).map (fun sp => (sp, t)))).map (fun x => x.2) := by
    simp [List.map_flatMap, Function.comp_def]
  rw [e1, List.getElem?_map] at h
  rw [e2, e3, List.getElem?_map, List.getElem?_map]
  cases hx : (T.flatMap (fun t => (f t).map (fun sp => (sp, t))))[i]? with
  | none => rw [hx] at h; simp at h
  | some x =>
    rw [hx] at h
    simp only [Option.map_some, Option.some.injEq] at h
    have := List.mem_of_getElem? hx
    simp only [List.mem_flatMap, List.mem_map] at this
    obtain ⟨t, ht, y, hy, rfl⟩ := this
    exact ⟨t, ht, by rw [← h]; exact hy, rfl, rfl⟩

/-- **C73.** After a call that succeeds, entry `i` of the three surface lists is a surface species,
the surface type it was found with, and the name of the surface given last for that type in this
or earlier calls; every species of every type defined is listed. -/
theorem surfaces_aligned {s s' : State} {w : Source} (hs : s.Paired) (hw : w.Paired) {n : Int}
    (h : findComponents s w = .ok (n, s')) (hn : n ≠ -7) :
    (∀ (i : Nat) (sp : Name), s'.surfSpecies[i]? = some sp →
      ∃ t nm, s'.surfTypes[i]? = some t ∧ s'.surfNames[i]? = some nm ∧ sp ∈ w.surfSp t ∧
        lastName (s.surfTypes.zip s.surfNames ++ w.surfTypes.zip w.surfNames) t = some nm) ∧
    (∀ t, t ∈ s.surfTypes ∨ t ∈ w.surfTypes → ∀ sp ∈ w.surfSp t, sp ∈ s'.surfSpecies) ∧
    s'.surfTypes.length = s'.surfSpecies.length ∧ s'.surfNames.length = s'.surfSpecies.length := by
  obtain ⟨n1, s1, h1, hp', -, -, h5⟩ := findComponents_spec hs hw
  rw [h] at h1
  cases h1
  rcases h5 with ⟨h5, -⟩ | ⟨-, -, -, -, -, -, ⟨P, hP, b1, b2, b3, -, -⟩⟩
  · exact absurd h5 hn
  rw [← addPairs_append] at hP
  have hwf : (w.surfTypes.zip w.surfNames).map Prod.fst = w.surfTypes := map_fst_zip (by rw [hw.1])
  have hsf : (s.surfTypes.zip s.surfNames).map Prod.fst = s.surfTypes :=
    map_fst_zip (by rw [hs.1, hs.2.1])
  have hm : ∀ t, t ∈ P.1 ↔ t ∈ s.surfTypes ∨ t ∈ w.surfTypes := by
    intro t
    rw [hP, addPairs_fst, List.map_append, hwf, hsf, OSet.mem_insAll]
    simp
  refine ⟨?_, ?_, hp'.1, hp'.2.1⟩
  · intro i sp hi
    rw [b1] at hi
    obtain ⟨t, ht, hsp, k1, k2⟩ := triples P.1 w.surfSp (nameOf P.2) hi
    refine ⟨t, nameOf P.2 t, by rw [b2]; exact k2, by rw [b3]; exact k1, hsp, ?_⟩
    have e : find P.2 t = lastName (s.surfTypes.zip s.surfNames ++ w.surfTypes.zip w.surfNames) t := by
      rw [hP, find_addPairs]
    unfold nameOf
    rw [e]
    cases e' : lastName (s.surfTypes.zip s.surfNames ++ w.surfTypes.zip w.surfNames) t with
    | some nm => rfl
    | none =>
      rw [lastName_none, List.map_append, hwf, hsf, List.mem_append] at e'
      exact absurd ((hm t).mp ht) e'
  · intro t ht sp hsp
    rw [b1, List.mem_flatMap]
    exact ⟨t, (hm t).mpr ht, hsp⟩

/-- **C73.** The same for exchange species. -/
theorem exchangers_aligned {s s' : State} {w : Source} (hs : s.Paired) (hw : w.Paired) {n : Int}
    (h : findComponents s w = .ok (n, s')) (hn : n ≠ -7) :
    (∀ (i : Nat) (sp : Name), s'.exSpecies[i]? = some sp →
      ∃ e, s'.exNames[i]? = some e ∧ sp ∈ w.exSp e ∧ (e ∈ s.exNames ∨ e ∈ w.exNames)) ∧
    (∀ e, e ∈ s.exNames ∨ e ∈ w.exNames → ∀ sp ∈ w.exSp e, sp ∈ s'.exSpecies) ∧
    s'.exNames.length = s'.exSpecies.length := by
  obtain ⟨n1, s1, h1, hp', -, -, h5⟩ := findComponents_spec hs hw
  rw [h] at h1
  cases h1
  rcases h5 with ⟨h5, -⟩ | ⟨-, -, -, -, -, -, ⟨P, hP, -, -, -, b4, b5⟩⟩
  · exact absurd h5 hn
  refine ⟨?_, ?_, hp'.2.2.1⟩
  · intro i sp hi
    rw [b4] at hi
    obtain ⟨t, ht, hsp, -, k2⟩ := triples _ w.exSp (fun _ => []) hi
    exact ⟨t, by rw [b5]; exact k2, hsp, (mem_newList _ _ _).mp ht⟩
  · intro t ht sp hsp
    rw [b4, List.mem_flatMap]
    exact ⟨t, (mem_newList _ _ _).mpr ht, hsp⟩

/-- Case: two types of the same surface, one known before. -/
example : ∃ s', findComponents
    { State.new with surfSpecies := ["Hfo_wOH".toList], surfTypes := ["Hfo_w".toList],
                     surfNames := ["Old".toList] }
    { elementsOnly [] with
        surfTypes := ["Hfo_s".toList, "Hfo_w".toList]
        surfNames := ["Hfo".toList, "Hfo".toList]
        surfSp := fun t => [t ++ "OH".toList] } = .ok (4, s') ∧
    s'.surfNames = ["Hfo".toList, "Hfo".toList] ∧
    s'.surfSpecies = ["Hfo_sOH".toList, "Hfo_wOH".toList] := by
  refine ⟨_, rfl, ?_, ?_⟩ <;> decide

end Verif.Components
