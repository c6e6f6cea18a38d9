import Verif.NameDouble.Lemmas

/-! # Properties of named values (C47, C48, C51) -/

namespace Verif.NameDouble

open Verif.OMap

/-! ## Extensive sums -/

/-- Adding `factor` times a list adds `factor` times each value, a missing entry counting as
zero, and the result is a proper map. -/
theorem addExtensive_spec (m addee : ND) (f : ℚ) (hm : Sorted m) (ha : Sorted addee) :
    Sorted (addExtensive m addee f) ∧
    (∀ k, val (addExtensive m addee f) k = val m k + f * val addee k) ∧
    (f ≠ 0 → ∀ k, k ∈ keys (addExtensive m addee f) ↔ k ∈ keys m ∨ k ∈ keys addee) := by
  unfold addExtensive
  by_cases hf : f = 0
  · simp [hf, hm]
  · rw [if_neg hf]
    refine ⟨?_, fun k => val_foldl_addEntry f addee m ha k, fun _ k => ?_⟩
    · clear ha
      induction addee generalizing m with
      | nil => exact hm
      | cons p addee ih => exact ih _ (sorted_addEntry f hm p)
    · clear ha hm
      induction addee generalizing m with
      | nil => simp [keys]
      | cons p addee ih =>
        rw [List.foldl_cons, ih, keys_addEntry]
        unfold keys
        rw [List.map_cons, List.mem_cons]
        tauto

example : addExtensive [(['C'], 1), (['N'], 2)] [(['C'], 3), (['S'], 4)] (1 / 2) =
    [(['C'], 5 / 2), (['N'], 2), (['S'], 2)] := by decide +kernel

/-- Scaling multiplies each value. -/
theorem multiply_spec (m : ND) (x : ℚ) (hm : Sorted m) :
    Sorted (multiply m x) ∧ keys (multiply m x) = keys m ∧
      ∀ k, val (multiply m x) k = x * val m k := by
  refine ⟨List.pairwise_map.mpr hm, by simp [multiply, keys], fun k => ?_⟩
  clear hm
  induction m with
  | nil => simp [multiply, val, find]
  | cons p m ih =>
    obtain ⟨a, v⟩ := p
    have : multiply ((a, v) :: m) x = (a, v * x) :: multiply m x := rfl
    rw [this, val_cons, val_cons, ih]
    by_cases e : k = a <;> simp [e, mul_comm]

example : multiply [(['C'], 1), (['N'], 2)] 3 = [(['C'], 3), (['N'], 6)] := by decide +kernel

/-! ## Intensive combination (C51) -/

/-- C51 as stated: every name gets the weighted combination, a missing entry counting as
zero. -/
def IntensiveOK (m addee : ND) (f1 f2 : ℚ) : Prop :=
  ∀ k, val (addIntensive m addee f1 f2) k = f1 * val m k + f2 * val addee k

/-- C51 is violated: a name present only in the first list keeps its value instead of being
weighted by `f1`. -/
theorem addIntensive_violated :
    ∃ (m addee : ND) (f1 f2 : ℚ), Sorted m ∧ Sorted addee ∧ 0 ≤ f1 ∧ 0 ≤ f2 ∧ f1 + f2 = 1 ∧
      ¬ IntensiveOK m addee f1 f2 := by
  refine ⟨[(['A'], 1)], [(['B'], 1)], 1 / 2, 1 / 2, by simp [Sorted], by simp [Sorted],
    by decide +kernel, by decide +kernel, by decide +kernel, ?_⟩
  intro h
  have := h ['A']
  revert this
  decide +kernel

/-- C51, the part that holds: names present in the second list, absent from the first list, or
any name when `f1 = 1`. Missing: names present only in the first list with `f1 ≠ 1`; those keep
their old value, which is the first conjunct's second case. -/
theorem addIntensive_partial (m addee : ND) (f1 f2 : ℚ) (ha : Sorted addee) :
    (∀ k, val (addIntensive m addee f1 f2) k =
      if k ∈ keys addee then f1 * val m k + f2 * val addee k else val m k) ∧
    ((∀ k ∈ keys m, k ∈ keys addee) → IntensiveOK m addee f1 f2) ∧
    (f1 = 1 → IntensiveOK m addee f1 f2) := by
  have key := val_foldl_mixEntry f1 f2 addee m ha
  refine ⟨key, fun h k => ?_, fun h k => ?_⟩
  · show val (addee.foldl (mixEntry f1 f2) m) k = _
    rw [key k]
    split_ifs with hk
    · rfl
    · rw [val_of_none hk, val_of_none (fun hm => hk (h k hm))]; ring
  · show val (addee.foldl (mixEntry f1 f2) m) k = _
    rw [key k]
    split_ifs with hk
    · rfl
    · rw [val_of_none hk, h]; ring

example : (∀ k ∈ keys ([(['C'], 1)] : ND), k ∈ keys ([(['C'], 3), (['S'], 4)] : ND)) ∧
    addIntensive [(['C'], 1)] [(['C'], 3), (['S'], 4)] (1 / 4) (3 / 4) =
      [(['C'], 5 / 2), (['S'], 3)] := by
  refine ⟨?_, by decide +kernel⟩
  simp [keys]

/-! ## Combining redox states (C47) -/

/-- C47. For totals whose names are element names or valence states, the simplified list has
exactly one entry for every element present other than H, O and Charge, holding that element's
total. -/
theorem simplifyRedox_spec (nd : ND) (hs : Sorted nd) (hg : ∀ p ∈ nd, GoodName p.1) :
    Sorted (simplifyRedox nd) ∧
    ∀ e v, find (simplifyRedox nd) e = some v ↔
      e ≠ "H".toList ∧ e ≠ "O".toList ∧ e ≠ "Charge".toList ∧
        (∃ p ∈ nd, IsState p.1 e) ∧ Total nd e v := by
  obtain ⟨h1, h2⟩ := enameList_aux nd [] (by simp [Sorted])
  have hmono : nd.Pairwise (fun a b => ename a.1 ≤ ename b.1) :=
    List.Pairwise.imp_of_mem
      (fun {a b} ha hb h => ename_mono (hg a ha) (hg b hb) h) hs
  have hkeys : keys (simplifyRedox nd) = keys (enameList nd) := keys_join _ _
  constructor
  · have : (keys (simplifyRedox nd)).Pairwise (· < ·) := by
      rw [hkeys]; exact List.pairwise_map.mpr h1
    exact List.pairwise_map.mp this
  · intro e v
    have hj := find_join nd (enameList nd) hmono h1 e
    have hf := h2 e
    change find (join nd (enameList nd)) e = some v ↔ _
    rw [hj]
    change find (enameList nd) e = _ at hf
    rw [hf]
    have hst : (∃ p ∈ nd, ename p.1 = e) ↔ ∃ p ∈ nd, IsState p.1 e :=
      ⟨fun ⟨p, hp, h⟩ => ⟨p, hp, (isState_iff_ename (hg p hp)).mpr h⟩,
       fun ⟨p, hp, h⟩ => ⟨p, hp, (isState_iff_ename (hg p hp)).mp h⟩⟩
    have hom : omitted e = false ↔
        e ≠ "H".toList ∧ e ≠ "O".toList ∧ e ≠ "Charge".toList := by
      simp [omitted, and_assoc]
    constructor
    · intro h
      split_ifs at h with hc
      · simp at h
        obtain ⟨ho, d⟩ := hc
        obtain ⟨a, b, c⟩ := hom.mp ho
        exact ⟨a, b, c, hst.mp d, h ▸ total_esum hg e⟩
      · simp [find] at h
    · rintro ⟨a, b, c, d, t⟩
      rw [if_pos ⟨hom.mpr ⟨a, b, c⟩, hst.mpr d⟩]
      simp [total_unique t (total_esum hg e)]

/-- Several elements, one a prefix of another, with H left out. -/
example : simplifyRedox [("C".toList, 1), ("C(4)".toList, 2), ("Fe".toList, 3),
      ("Fe(2)".toList, 4), ("Fe(3)".toList, 5), ("H(0)".toList, 6), ("S(6)".toList, 7)] =
    [("C".toList, 3), ("Fe".toList, 12), ("S".toList, 7)] := by decide +kernel

example : ∀ p ∈ ([("C".toList, 1), ("C(4)".toList, 2)] : ND), GoodName p.1 := by
  intro p hp
  simp only [List.mem_cons, List.not_mem_nil, or_false] at hp
  rcases hp with rfl | rfl
  · exact ⟨"C".toList, by decide, .inl rfl⟩
  · exact ⟨"C".toList, by decide, .inr ⟨"4)".toList, by decide, by decide⟩⟩

/-- The condition on names is needed: with a character sorting before the parenthesis the two
iterators get out of step and an element's total is lost. -/
theorem simplifyRedox_names_needed :
    ∃ nd : ND, Sorted nd ∧ find (simplifyRedox nd) ['X'] = some 0 ∧ Total nd ['X'] 1 := by
  refine ⟨[("X#".toList, 2), ("X(1)".toList, 1)], ?_, by decide +kernel, ?_⟩
  · simp only [Sorted, List.pairwise_cons, List.mem_singleton, forall_eq, List.not_mem_nil,
      false_imp_iff, implies_true, List.Pairwise.nil, and_self, and_true]
    decide
  · refine .miss (fun h => ?_) ?_
    · have := (isState_iff _ _).mp h
      revert this; decide
    · have := Total.hit (v := (1 : ℚ)) ((isState_iff "X(1)".toList ['X']).mpr (by decide))
        (Total.nil ['X'])
      simpa using this

/-- `Get_total_element` sums the entries of an element and its valence states, for any names
and any element name without a parenthesis. -/
theorem getTotalElement_spec (nd : ND) (e : Name) : Total nd e (getTotalElement nd e) := by
  obtain ⟨t, h1, h2⟩ := getTotal_aux nd e 0
  have : getTotalElement nd e = t := by
    unfold getTotalElement; rw [h2]; ring
  rw [this]; exact h1

example : getTotalElement [("Fe".toList, 3), ("Fe(2)".toList, 4), ("Fm".toList, 5)]
    "Fe".toList = 7 := by decide +kernel

/-- Reading an element total before or after simplification gives the same amount. -/
theorem simplifyRedox_total (nd : ND) (hs : Sorted nd) (hg : ∀ p ∈ nd, GoodName p.1)
    (e : Name) (h1 : e ≠ "H".toList) (h2 : e ≠ "O".toList) (h3 : e ≠ "Charge".toList) :
    val (simplifyRedox nd) e = getTotalElement nd e := by
  have key := (simplifyRedox_spec nd hs hg).2 e
  have ht := getTotalElement_spec nd e
  by_cases hex : ∃ p ∈ nd, IsState p.1 e
  · unfold val
    rw [(key _).mpr ⟨h1, h2, h3, hex, ht⟩]
  · have hz : getTotalElement nd e = 0 := by
      refine total_unique ht ?_
      clear key ht hs hg
      induction nd with
      | nil => exact .nil e
      | cons p nd ih =>
        obtain ⟨n, v⟩ := p
        refine .miss (fun h => hex ⟨_, List.mem_cons_self, h⟩) (ih ?_)
        rintro ⟨q, hq, h⟩
        exact hex ⟨q, List.mem_cons_of_mem _ hq, h⟩
    unfold val
    cases hf : find (simplifyRedox nd) e with
    | none => simp [hz]
    | some v => exact absurd ((key v).mp hf).2.2.2.1 hex

/-! ## Merging with redox states (C48) -/

/-- C48 as stated: after merging `source`, entries of elements not in `source` are unchanged,
and an element's plain total is gone when `source` gives valence states instead. -/
def MergeOK (m source : ND) : Prop :=
  ∀ e, '(' ∉ e →
    ((∀ p ∈ source, ¬ IsState p.1 e) →
      ∀ k, IsState k e → find (mergeRedox m source) k = find m k) ∧
    ((∃ p ∈ source, IsState p.1 e) → e ∉ keys source → find (mergeRedox m source) e = none)

/-- C48 is violated: merging `Fe(2)` into fluorine and iron deletes fluorine, and keeps the
iron total that it should have replaced. -/
theorem mergeRedox_violated :
    ∃ m source : ND, Sorted m ∧ Sorted source ∧
      mergeRedox m source = [("Fe".toList, 2), ("Fe(2)".toList, 3)] ∧
      find m "F".toList = some 1 ∧ ¬ MergeOK m source := by
  refine ⟨[("F".toList, 1), ("Fe".toList, 2)], [("Fe(2)".toList, 3)], ?_, ?_,
    by decide +kernel, by decide +kernel, ?_⟩
  · simp only [Sorted, List.pairwise_cons, List.mem_singleton, forall_eq, List.not_mem_nil,
      false_imp_iff, implies_true, List.Pairwise.nil, and_self, and_true]
    decide
  · simp [Sorted]
  · intro h
    have h1 := (h "F".toList (by decide)).1 (by
      intro p hp
      simp only [List.mem_singleton] at hp
      subst hp
      rw [isState_iff]; decide) "F".toList ((isState_iff _ _).mpr (by decide))
    revert h1
    decide +kernel

theorem mergeRedox_plain_find (m source : ND) (hs : Sorted source)
    (hp : ∀ p ∈ source, '(' ∉ p.1) (k : Name) :
    find (mergeRedox m source) k =
      match find source k with
      | some v => some v
      | none => if ∃ p ∈ source, p.1 ++ ['('] <+: k then none else find m k := by
  unfold mergeRedox
  induction source generalizing m with
  | nil => simp [find]
  | cons p source ih =>
    obtain ⟨a, v⟩ := p
    have hpa : '(' ∉ a := hp (a, v) List.mem_cons_self
    rw [List.foldl_cons, ih _ (List.pairwise_cons.mp hs).2
      (fun p h => hp p (List.mem_cons_of_mem _ h))]
    rw [find_mergeEntry]
    simp only [find]
    have hna : find source a = none :=
      (find_eq_none_iff _ _).mpr (not_mem_keys_of_sorted hs)
    by_cases hk : k = a
    · subst hk
      rw [hna]
      have : ¬ ∃ p ∈ source, p.1 ++ ['('] <+: k := by
        rintro ⟨p, _, hpre⟩
        exact hpa (hpre.subset (by simp))
      simp [this]
    · rw [if_neg hk, if_neg hk, if_neg hpa]
      cases find source k with
      | some w => rfl
      | none =>
        have hiff : (∃ p ∈ (a, v) :: source, p.1 ++ ['('] <+: k) ↔
            (a ++ ['('] <+: k ∨ ∃ p ∈ source, p.1 ++ ['('] <+: k) := by simp
        by_cases c1 : a ++ ['('] <+: k
        · simp only [if_pos c1, if_pos (hiff.mpr (.inl c1)), ite_self]
        · by_cases c2 : ∃ p ∈ source, p.1 ++ ['('] <+: k
          · simp only [if_pos c2, if_pos (hiff.mpr (.inr c2))]
          · simp only [if_neg c1, if_neg c2, if_neg (fun h => (hiff.mp h).elim c1 c2)]

/-- C48, the part that holds: when the merged values are all keyed by plain element names,
every merged element has exactly the merged value and none of its former valence states, and
every other element is unchanged. Missing: merged values keyed by a valence state. -/
theorem mergeRedox_partial (m source : ND) (hm : Sorted m) (hs : Sorted source)
    (hp : ∀ p ∈ source, '(' ∉ p.1) :
    Sorted (mergeRedox m source) ∧ MergeOK m source ∧
    (∀ p ∈ source, ∀ k, IsState k p.1 →
      find (mergeRedox m source) k = if k = p.1 then some p.2 else none) := by
  have hf := mergeRedox_plain_find m source hs hp
  have hpre : ∀ (q e k : Name), '(' ∉ q → IsState k e → (q ++ ['('] <+: k → q = e) := by
    intro q e k hq hst hpr
    obtain ⟨t, rfl⟩ := hpr
    have := (isState_iff _ _).mp hst
    rw [List.append_assoc, List.takeWhile_append_of_pos] at this
    · simpa using this
    · intro x hx; simp; rintro rfl; exact hq hx
  refine ⟨?_, ?_, ?_⟩
  · clear hf hs hp
    unfold mergeRedox
    induction source generalizing m with
    | nil => exact hm
    | cons p source ih => exact ih _ (sorted_mergeEntry hm p)
  · intro e he
    refine ⟨fun hno k hk => ?_, fun hex hkn => ?_⟩
    · rw [hf k]
      have hnone : find source k = none := by
        rw [find_eq_none_iff]
        intro hmem
        obtain ⟨p, hpm, rfl⟩ := List.mem_map.mp hmem
        exact hno p hpm hk
      rw [hnone]
      have : ¬ ∃ p ∈ source, p.1 ++ ['('] <+: k := by
        rintro ⟨p, hpm, hpr⟩
        have := hpre p.1 e k (hp p hpm) hk hpr
        exact hno p hpm ⟨he, .inl this⟩
      simp [this]
    · exfalso
      obtain ⟨p, hpm, h⟩ := hex
      rcases h.2 with h | ⟨s, h⟩
      · exact hkn (h ▸ List.mem_map.mpr ⟨p, hpm, rfl⟩)
      · exact hp p hpm (by rw [h]; simp)
  · intro p hpm k hk
    rw [hf k]
    by_cases hkp : k = p.1
    · subst hkp
      rw [find_of_mem hs (show (p.1, p.2) ∈ source from hpm)]
      simp
    · rw [if_neg hkp]
      have hsuf : p.1 ++ ['('] <+: k := by
        rcases hk.2 with h | ⟨s, h⟩
        · exact absurd h hkp
        · exact ⟨s, by simp [h]⟩
      have hnone : find source k = none := by
        rw [find_eq_none_iff]
        intro hmem
        obtain ⟨q, hqm, rfl⟩ := List.mem_map.mp hmem
        exact hp q hqm (hsuf.subset (by simp))
      rw [hnone]
      simp only
      rw [if_pos ⟨p, hpm, hsuf⟩]

example : mergeRedox [("F".toList, 1), ("Fe(2)".toList, 2), ("Fe(3)".toList, 3)]
    [("Fe".toList, 9)] = [("F".toList, 1), ("Fe".toList, 9)] := by decide +kernel

/-- What merging leaves alone for any source: a name that is not itself merged, is not a
valence state of a merged plain name, and is not a merged state's name cut one letter short. -/
theorem mergeRedox_frame (m source : ND) (k : Name)
    (h1 : ∀ p ∈ source, p.1 ≠ k)
    (h2 : ∀ p ∈ source, '(' ∉ p.1 → ¬ p.1 ++ ['('] <+: k)
    (h3 : ∀ p ∈ source, '(' ∈ p.1 → cutName p.1 ≠ k) :
    find (mergeRedox m source) k = find m k := by
  unfold mergeRedox
  induction source generalizing m with
  | nil => rfl
  | cons p source ih =>
    rw [List.foldl_cons, ih _ (fun q hq => h1 q (List.mem_cons_of_mem _ hq))
      (fun q hq => h2 q (List.mem_cons_of_mem _ hq))
      (fun q hq => h3 q (List.mem_cons_of_mem _ hq)), find_mergeEntry]
    have a1 := h1 p List.mem_cons_self
    have a2 := h2 p List.mem_cons_self
    have a3 := h3 p List.mem_cons_self
    rw [if_neg (fun h => a1 h.symm)]
    by_cases hb : '(' ∈ p.1
    · rw [if_pos hb, if_neg (fun h => a3 hb h.symm)]
    · rw [if_neg hb, if_neg (a2 hb)]

end Verif.NameDouble
