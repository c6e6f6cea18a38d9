import Verif.Components.Spec

/-!
# Finding components: lemmas
-/

namespace Verif.Components

open Verif.OMap

/-- Adding pairs to a set and a map. -/
def addPairs (p : List Name × SMap Name Name) (l : List (Name × Name)) :
    List Name × SMap Name Name :=
  l.foldl (fun p ab => (OSet.ins p.1 ab.1, insert p.2 ab.1 ab.2)) p

theorem at?_ok {l : List Name} {i : Nat} (h : i < l.length) : at? l i = .ok l[i] := by
  simp [at?, List.getElem?_eq_getElem h]

theorem foldlM_pairs (A B : List Name) (n : Nat) (hA : n ≤ A.length) (hB : n ≤ B.length)
    (p0 : List Name × SMap Name Name) :
    (List.range n).foldlM (fun (p : List Name × SMap Name Name) (i : Nat) => do
      let c ← at? A i
      let m ← at? B i
      Out.ok (OSet.ins p.1 c, insert p.2 c m)) p0 = .ok (addPairs p0 ((A.zip B).take n)) := by
  induction n with
  | zero => simp [addPairs, Out.pure_eq]
  | succ n ih =>
    rw [List.range_succ, List.foldlM_append, ih (by omega) (by omega), Out.ok_bind]
    have h : n < (A.zip B).length := by rw [List.length_zip]; omega
    rw [List.take_succ_eq_append_getElem h]
    simp only [List.foldlM_cons, List.foldlM_nil, bind_pure]
    rw [at?_ok (by omega), Out.ok_bind, at?_ok (by omega), Out.ok_bind]
    simp [addPairs, List.foldl_append]

theorem addPairs_fst (p : List Name × SMap Name Name) (l : List (Name × Name)) :
    (addPairs p l).1 = OSet.insAll p.1 (l.map Prod.fst) := by
  unfold addPairs OSet.insAll
  induction l generalizing p with
  | nil => rfl
  | cons a l ih => rw [List.foldl_cons, ih]; rfl

theorem addPairs_find (p : List Name × SMap Name Name) (l : List (Name × Name)) (t : Name) :
    find (addPairs p l).2 t =
      match lastName l t with
      | some n => some n
      | none => find p.2 t := by
  unfold addPairs
  induction l generalizing p with
  | nil => rfl
  | cons a l ih =>
    rw [List.foldl_cons, ih]
    simp only [lastName, find_insert]
    cases lastName l t with
    | some n => rfl
    | none =>
      by_cases e : a.1 = t
      · simp [e]
      · simp only [e, if_false, if_neg (Ne.symm e)]

theorem addPairs_append (p : List Name × SMap Name Name) (l l' : List (Name × Name)) :
    addPairs p (l ++ l') = addPairs (addPairs p l) l' := by
  simp [addPairs, List.foldl_append]

theorem lastName_none (l : List (Name × Name)) (t : Name) :
    lastName l t = none ↔ t ∉ l.map Prod.fst := by
  induction l with
  | nil => simp [lastName]
  | cons a l ih =>
    simp only [lastName, List.map_cons, List.mem_cons, not_or]
    cases h : lastName l t with
    | some n =>
      rw [h] at ih
      simp only [reduceCtorEq, false_iff, not_and]
      intro _ h'
      exact absurd (ih.mpr h') (by simp)
    | none =>
      rw [h] at ih
      by_cases e : a.1 = t
      · simp [e]
      · simp only [e, if_false, true_iff]
        exact ⟨fun h => e h.symm, ih.mp rfl⟩

theorem lastName_mem {l : List (Name × Name)} {t n : Name} (h : lastName l t = some n) :
    (t, n) ∈ l := by
  induction l with
  | nil => simp [lastName] at h
  | cons a l ih =>
    simp only [lastName] at h
    cases h' : lastName l t with
    | some m =>
      rw [h'] at h
      simp only [Option.some.injEq] at h
      subst h
      exact List.mem_cons_of_mem _ (ih h')
    | none =>
      rw [h'] at h
      by_cases e : a.1 = t
      · simp only [e, if_true, Option.some.injEq] at h
        subst e h
        exact List.mem_cons_self
      · simp [e] at h

/-- With one definition per thing, the last name is the only one. -/
theorem lastName_of_mem {l : List (Name × Name)} (hn : (l.map Prod.fst).Nodup) {t n : Name}
    (h : (t, n) ∈ l) : lastName l t = some n := by
  induction l with
  | nil => simp at h
  | cons a l ih =>
    obtain ⟨h1, h2⟩ := List.nodup_cons.mp (by simpa using hn : (a.1 :: l.map Prod.fst).Nodup)
    simp only [lastName]
    rcases List.mem_cons.mp h with e | e
    · subst e
      rw [(lastName_none l t).mpr h1]
      simp
    · rw [ih h2 e]

/-! ## Solid solutions -/

theorem map_fst_zip {A B : List Name} (h : A.length ≤ B.length) : (A.zip B).map Prod.fst = A :=
  List.map_fst_zip h

theorem ssOld_eq {s : State} (h : s.ssNames.length = s.ssComps.length) :
    ssOld s = .ok (addPairs ([], []) (s.ssComps.zip s.ssNames)) := by
  unfold ssOld
  rw [foldlM_pairs _ _ _ (le_refl _) (by omega)]
  rw [List.take_of_length_le (by rw [List.length_zip]; omega)]

/-- The components that are new, in order. -/
def fresh (known : List Name) : List Name → List Name
  | [] => []
  | c :: cs => if c ∈ known then fresh known cs else c :: fresh (OSet.ins known c) cs

theorem fresh_length (known cs : List Name) : (fresh known cs).length ≤ cs.length := by
  induction cs generalizing known with
  | nil => simp [fresh]
  | cons c cs ih =>
    simp only [fresh]
    split
    · exact Nat.le_trans (ih _) (by simp)
    · simp only [List.length_cons]
      exact Nat.succ_le_succ (ih _)

theorem ssNew_fold (names cs : List Name) (p : List Name × SMap Name Name) (k : Nat)
    (h : k + (fresh p.1 cs).length ≤ names.length) :
    cs.foldlM (fun (q : (List Name × SMap Name Name) × Nat) c =>
      if c ∈ q.1.1 then Out.ok q
      else do
        let n ← at? names q.2
        Out.ok ((OSet.ins q.1.1 c, insert q.1.2 c n), q.2 + 1)) (p, k) =
      .ok (addPairs p ((fresh p.1 cs).zip (names.drop k)), k + (fresh p.1 cs).length) := by
  induction cs generalizing p k with
  | nil => simp [fresh, addPairs, Out.pure_eq]
  | cons c cs ih =>
    rw [List.foldlM_cons]
    by_cases hc : c ∈ p.1
    · simp only [hc, if_true, Out.ok_bind, fresh] at h ⊢
      exact ih p k h
    · simp only [hc, if_false, fresh] at h ⊢
      simp only [List.length_cons] at h
      have hk : k < names.length := by omega
      rw [at?_ok hk]
      simp only [Out.ok_bind]
      rw [ih _ _ (by simp only; omega)]
      rw [List.drop_eq_getElem_cons hk, List.zip_cons_cons]
      simp only [addPairs, List.foldl_cons, List.length_cons, Out.ok.injEq, Prod.mk.injEq, true_and]
      omega

theorem ssNew_eq (names cs : List Name) (p : List Name × SMap Name Name)
    (h : cs.length ≤ names.length) :
    ssNew cs names p = .ok (addPairs p ((fresh p.1 cs).zip names)) := by
  unfold ssNew
  rw [ssNew_fold names cs p 0 (by have := fresh_length p.1 cs; omega), Out.ok_bind]
  simp

theorem mem_fresh (known cs : List Name) (x : Name) :
    x ∈ fresh known cs ↔ x ∈ cs ∧ x ∉ known := by
  induction cs generalizing known with
  | nil => simp [fresh]
  | cons c cs ih =>
    simp only [fresh]
    split
    · rename_i hc
      rw [ih]
      simp only [List.mem_cons]
      constructor
      · rintro ⟨h1, h2⟩; exact ⟨.inr h1, h2⟩
      · rintro ⟨h1 | h1, h2⟩
        · subst h1; exact absurd hc h2
        · exact ⟨h1, h2⟩
    · rename_i hc
      simp only [List.mem_cons, ih, OSet.mem_ins, not_or]
      constructor
      · rintro (h | ⟨h1, h2, h3⟩)
        · subst h; exact ⟨.inl rfl, hc⟩
        · exact ⟨.inr h1, h3⟩
      · rintro ⟨h1 | h1, h2⟩
        · exact .inl h1
        · by_cases e : x = c
          · exact .inl e
          · exact .inr ⟨h1, e, h2⟩

theorem fresh_nodup (known cs : List Name) : (fresh known cs).Nodup := by
  induction cs generalizing known with
  | nil => simp [fresh]
  | cons c cs ih =>
    simp only [fresh]
    split
    · exact ih _
    · refine List.nodup_cons.mpr ⟨fun h => ?_, ih _⟩
      have := ((mem_fresh _ _ _).mp h).2
      exact this ((OSet.mem_ins _ _ _).mpr (.inl rfl))

/-! ## Surfaces and exchangers -/

/-- What the surface loop leaves, whether or not it stops early: the types `done`. -/
theorem surfLoop_spec (w : Source) (m : SMap Name Name) (ts : List Name) (s : State) :
    ∃ done rest, ts = done ++ rest ∧ ((surfLoop w m ts s).2 = true → rest = []) ∧
      (surfLoop w m ts s).1 = { s with
        surfSpecies := s.surfSpecies ++ done.flatMap w.surfSp
        surfTypes := s.surfTypes ++ done.flatMap (fun t => (w.surfSp t).map (fun _ => t))
        surfNames := s.surfNames ++
          done.flatMap (fun t => (w.surfSp t).map (fun _ => nameOf m t)) } := by
  induction ts generalizing s with
  | nil => exact ⟨[], [], rfl, fun _ => rfl, by simp [surfLoop]⟩
  | cons t ts ih =>
    by_cases h : w.surfOk t
    · obtain ⟨done, rest, h1, h2, h3⟩ := ih { s with
        surfSpecies := s.surfSpecies ++ w.surfSp t
        surfTypes := s.surfTypes ++ (w.surfSp t).map (fun _ => t)
        surfNames := s.surfNames ++ (w.surfSp t).map (fun _ => nameOf m t) }
      refine ⟨t :: done, rest, by rw [h1]; rfl, ?_, ?_⟩
      · simpa only [surfLoop, h, if_true] using h2
      · simp only [surfLoop, h, if_true]
        rw [h3]
        simp [List.flatMap_cons]
    · exact ⟨[], t :: ts, rfl, by simp [surfLoop, h], by simp [surfLoop, h]⟩

theorem exLoop_spec (w : Source) (es : List Name) (s : State) :
    ∃ done rest, es = done ++ rest ∧ ((exLoop w es s).2 = true → rest = []) ∧
      (exLoop w es s).1 = { s with
        exSpecies := s.exSpecies ++ done.flatMap w.exSp
        exNames := s.exNames ++ done.flatMap (fun t => (w.exSp t).map (fun _ => t)) } := by
  induction es generalizing s with
  | nil => exact ⟨[], [], rfl, fun _ => rfl, by simp [exLoop]⟩
  | cons t ts ih =>
    by_cases h : w.exOk t
    · obtain ⟨done, rest, h1, h2, h3⟩ := ih { s with
        exSpecies := s.exSpecies ++ w.exSp t
        exNames := s.exNames ++ (w.exSp t).map (fun _ => t) }
      refine ⟨t :: done, rest, by rw [h1]; rfl, ?_, ?_⟩
      · simpa only [exLoop, h, if_true] using h2
      · simp only [exLoop, h, if_true]
        rw [h3]
        simp [List.flatMap_cons]
    · exact ⟨[], t :: ts, rfl, by simp [exLoop, h], by simp [exLoop, h]⟩

theorem surfSets_eq {s : State} {w : Source} (hs : s.Paired) (hw : w.Paired) :
    surfSets s w = .ok (addPairs (addPairs ([], []) (s.surfTypes.zip s.surfNames))
      (w.surfTypes.zip w.surfNames)) := by
  obtain ⟨a, b, -, -⟩ := hs
  obtain ⟨c, -⟩ := hw
  unfold surfSets
  rw [foldlM_pairs _ _ _ (by omega) (by omega), Out.ok_bind,
    foldlM_pairs _ _ _ (by omega) (by omega)]
  rw [List.take_of_length_le (by rw [List.length_zip]; omega),
    List.take_of_length_le (by rw [List.length_zip]; omega)]

theorem flatMap_length_map {α β γ : Type} (l : List α) (f : α → List β) (g : α → γ) :
    (l.flatMap (fun t => (f t).map (fun _ => g t))).length = (l.flatMap f).length := by
  induction l with
  | nil => rfl
  | cons a l ih => simp [List.flatMap_cons]

/-- What the surface and exchange part does. -/
theorem surfaceLists_spec {s : State} {w : Source} (hs : s.Paired) (hw : w.Paired) :
    ∃ s' b, surfaceLists s w = .ok (s', b) ∧ s'.Paired ∧
      s'.h2o = s.h2o ∧ s'.comps = s.comps ∧ s'.siNames = s.siNames ∧ s'.eqPhases = s.eqPhases ∧
      s'.gases = s.gases ∧ s'.kinetics = s.kinetics ∧ s'.ssComps = s.ssComps ∧
      s'.ssNames = s.ssNames ∧
      (b = true →
        ∃ p, p = addPairs (addPairs ([], []) (s.surfTypes.zip s.surfNames))
            (w.surfTypes.zip w.surfNames) ∧
          s'.surfSpecies = p.1.flatMap w.surfSp ∧
          s'.surfTypes = p.1.flatMap (fun t => (w.surfSp t).map (fun _ => t)) ∧
          s'.surfNames = p.1.flatMap (fun t => (w.surfSp t).map (fun _ => nameOf p.2 t)) ∧
          s'.exSpecies = (newList s.exNames w.exNames).flatMap w.exSp ∧
          s'.exNames = (newList s.exNames w.exNames).flatMap
            (fun t => (w.exSp t).map (fun _ => t))) := by
  unfold surfaceLists
  rw [surfSets_eq hs hw, Out.ok_bind]
  generalize hp : addPairs (addPairs ([], []) (s.surfTypes.zip s.surfNames))
      (w.surfTypes.zip w.surfNames) = p
  simp only
  obtain ⟨hp1, hp2, hp3, hp4⟩ := hs
  split
  · exact ⟨s, false, rfl, ⟨hp1, hp2, hp3, hp4⟩, rfl, rfl, rfl, rfl, rfl, rfl, rfl, rfl, by simp⟩
  · obtain ⟨done, rest, h1, h2, h3⟩ := surfLoop_spec w p.2 p.1
      { s with surfSpecies := [], surfTypes := [], surfNames := [] }
    generalize surfLoop w p.2 p.1
      { s with surfSpecies := [], surfTypes := [], surfNames := [] } = r at h2 h3 ⊢
    obtain ⟨r1, r2⟩ := r
    simp only at h2 h3 ⊢
    split
    · rename_i hr
      subst h3
      refine ⟨_, _, rfl, ⟨?_, ?_, hp3, hp4⟩, rfl, rfl, rfl, rfl, rfl, rfl, rfl, rfl, by simp [hr]⟩
      · simp only [List.nil_append]; exact flatMap_length_map _ _ _
      · simp only [List.nil_append]; exact flatMap_length_map _ _ _
    · rename_i hr
      have hrest := h2 (by simpa using hr)
      subst hrest
      rw [List.append_nil] at h1
      obtain ⟨done', rest', g1, g2, g3⟩ := exLoop_spec w (newList s.exNames w.exNames)
        { r1 with exSpecies := [], exNames := [] }
      generalize exLoop w (newList s.exNames w.exNames)
        { r1 with exSpecies := [], exNames := [] } = q at g2 g3 ⊢
      obtain ⟨q1, q2⟩ := q
      simp only at g2 g3 ⊢
      subst h3 g3
      refine ⟨_, _, rfl, ⟨?_, ?_, ?_, hp4⟩, rfl, rfl, rfl, rfl, rfl, rfl, rfl, rfl, ?_⟩
      · simp only [List.nil_append]; exact flatMap_length_map _ _ _
      · simp only [List.nil_append]; exact flatMap_length_map _ _ _
      · simp only [List.nil_append]; exact flatMap_length_map _ _ _
      · intro hq
        have := g2 hq
        subst this
        rw [List.append_nil] at g1
        refine ⟨p, rfl, ?_⟩
        simp only [List.nil_append, h1, g1]
        exact ⟨trivial, trivial, trivial, trivial, trivial⟩

/-- What a call does to the state. -/
theorem findComponents_spec {s : State} {w : Source} (hs : s.Paired) (hw : w.Paired) :
    ∃ n s', findComponents s w = .ok (n, s') ∧ s'.Paired ∧ s'.h2o = s.h2o ∧
      s'.comps = newComps s w.elements ∧
      ((n = IRM.fail.toInt ∧ s'.eqPhases = s.eqPhases ∧ s'.gases = s.gases ∧
          s'.kinetics = s.kinetics ∧ s'.ssComps = s.ssComps ∧ s'.ssNames = s.ssNames) ∨ (n = s'.comps.length ∧
        s'.siNames = s.siNames ++ w.siNames ∧
        s'.eqPhases = newList s.eqPhases w.eqPhases ∧
        s'.gases = newList s.gases w.gases ∧
        s'.kinetics = newList s.kinetics w.kinetics ∧
        (∃ p q, p = addPairs ([], []) (s.ssComps.zip s.ssNames) ∧
          q = addPairs p ((fresh p.1 w.ssComps).zip w.ssNames) ∧
          s'.ssComps = q.1 ∧ s'.ssNames = q.1.map (nameOf q.2)) ∧
        (∃ p, p = addPairs (addPairs ([], []) (s.surfTypes.zip s.surfNames))
            (w.surfTypes.zip w.surfNames) ∧
          s'.surfSpecies = p.1.flatMap w.surfSp ∧
          s'.surfTypes = p.1.flatMap (fun t => (w.surfSp t).map (fun _ => t)) ∧
          s'.surfNames = p.1.flatMap (fun t => (w.surfSp t).map (fun _ => nameOf p.2 t)) ∧
          s'.exSpecies = (newList s.exNames w.exNames).flatMap w.exSp ∧
          s'.exNames = (newList s.exNames w.exNames).flatMap
            (fun t => (w.exSp t).map (fun _ => t))))) := by
  unfold findComponents
  simp only
  split
  · exact ⟨_, _, rfl, hs, rfl, rfl, .inl ⟨rfl, rfl, rfl, rfl, rfl, rfl⟩⟩
  · have hs2 : State.Paired { s with comps := newComps s w.elements,
                                     siNames := s.siNames ++ w.siNames } := hs
    obtain ⟨s', b, h1, h2, h3, h4, h5, h6, h7, h8, h9, h10, h11⟩ := surfaceLists_spec hs2 hw
    rw [h1, Out.ok_bind]
    simp only
    split
    · exact ⟨_, _, rfl, h2, h3, h4, .inl ⟨rfl, h6, h7, h8, h9, h10⟩⟩
    · rename_i hb
      have hb' : b = true := by simpa using hb
      obtain ⟨p, hp, e1, e2, e3, e4, e5⟩ := h11 hb'
      unfold lastLists
      rw [ssOld_eq h2.2.2.2, Out.ok_bind, ssNew_eq _ _ _ (by rw [hw.2]), Out.ok_bind, Out.ok_bind]
      refine ⟨_, _, rfl, ⟨h2.1, h2.2.1, h2.2.2.1, ?_⟩, h3, h4, .inr ⟨rfl, h5, ?_, ?_, ?_, ?_, ?_⟩⟩
      · simp
      · simp [h6]
      · simp [h7]
      · simp [h8]
      · refine ⟨_, _, rfl, rfl, ?_, ?_⟩
        · simp [h9, h10]
        · simp [h9, h10]
      · exact ⟨p, hp, e1, e2, e3, e4, e5⟩

theorem paired_new (b : Bool) : State.Paired { State.new with h2o := b } :=
  ⟨rfl, rfl, rfl, rfl⟩

end Verif.Components
