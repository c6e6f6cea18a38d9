import Verif.Python.Model
import Verif.Catalog.Props

/-! # Tables of the Python interface -/

namespace Verif.Python

open Verif.OMap Verif.NameDouble Verif.Catalog

/-! ## Lemmas -/

/-- Entries put into a map one after the other. -/
def put {κ ν : Type} [LinearOrder κ] (d : SMap κ ν) (l : List (κ × ν)) : SMap κ ν :=
  l.foldl (fun m p => insert m p.1 p.2) d

theorem put_find {κ ν : Type} [LinearOrder κ] (l : List (κ × ν)) : ∀ (d : SMap κ ν) (k : κ), (l.map Prod.fst).Nodup →
    (∀ v, (k, v) ∈ l → OMap.find (put d l) k = some v) ∧
    (k ∉ l.map Prod.fst → OMap.find (put d l) k = OMap.find d k) := by
  induction l with
  | nil => intro d k _; exact ⟨by simp, fun _ => rfl⟩
  | cons p l ih =>
    intro d k hn
    rw [List.map_cons, List.nodup_cons] at hn
    have e : put d (p :: l) = put (insert d p.1 p.2) l := rfl
    obtain ⟨h1, h2⟩ := ih (insert d p.1 p.2) k hn.2
    rw [e]
    refine ⟨fun v hv => ?_, fun hk => ?_⟩
    · rcases List.mem_cons.mp hv with h | h
      · subst h
        rw [h2 hn.1, find_insert, if_pos rfl]
      · exact h1 v h
    · rw [List.map_cons, List.mem_cons, not_or] at hk
      rw [h2 hk.2, find_insert, if_neg hk.1]

theorem keys_nodup {κ ν : Type} [LinearOrder κ] {m : SMap κ ν} (h : Sorted m) : (m.map Prod.fst).Nodup :=
  List.pairwise_map.mpr (h.imp (fun h => ne_of_lt h))

theorem put_same {κ ν : Type} [LinearOrder κ] {m : SMap κ ν} (h : Sorted m) (k : κ) :
    OMap.find (put [] m) k = OMap.find m k := by
  obtain ⟨h1, h2⟩ := put_find m [] k (keys_nodup h)
  cases e : OMap.find m k with
  | some v => exact h1 v (mem_of_find e)
  | none =>
    rw [h2]
    · rfl
    · intro hk
      obtain ⟨⟨a, v⟩, hm, rfl⟩ := List.mem_map.mp hk
      rw [find_of_mem h hm] at e
      cases e

theorem fillStoich_spec (pre : List ND) : ∀ (suf : List ND) (names : List Name) (f : Flat),
    names.length = suf.length →
    fillStoich (pre ++ suf) names pre.length f = .ok ⟨f.nelt ++ suf.map (fun nd => (nd.length : Int)),
      f.elts ++ suf.flatten.map Prod.fst, f.coef ++ suf.flatten.map Prod.snd⟩ := by
  intro suf
  induction suf generalizing pre with
  | nil =>
    intro names f h
    cases names with
    | nil => simp [fillStoich]
    | cons _ _ => simp at h
  | cons nd suf ih =>
    intro names f h
    cases names with
    | nil => simp at h
    | cons n names =>
      unfold fillStoich
      rw [List.getElem?_append_right (le_refl _), Nat.sub_self, List.getElem?_cons_zero]
      dsimp only
      have := ih (pre ++ [nd]) names
        ⟨f.nelt ++ [(nd.length : Int)], f.elts ++ nd.map Prod.fst, f.coef ++ nd.map Prod.snd⟩ (by simpa using h)
      rw [List.append_assoc, List.length_append] at this
      simp only [List.singleton_append, List.length_singleton] at this
      rw [this]
      simp [List.append_assoc]

theorem pyElements_spec (elts : List Name) (coefs : List ℚ) : ∀ (nd : ND) (j : Nat) (d : ND),
    (∀ i p, nd[i]? = some p → elts[j + i]? = some p.1 ∧ coefs[j + i]? = some p.2) →
    pyElements elts coefs nd.length j d = .ok (j + nd.length, put d nd) := by
  intro nd
  induction nd with
  | nil => intro j d _; rfl
  | cons p nd ih =>
    intro j d h
    obtain ⟨h1, h2⟩ := h 0 p rfl
    rw [Nat.add_zero] at h1 h2
    show (do
      let e ← pyIdx elts j
      let c ← pyIdx coefs j
      pyElements elts coefs nd.length (j + 1) (insert d e c)) = _
    unfold pyIdx
    rw [h1, h2]
    simp only [Out.ok_bind]
    rw [ih (j + 1) (insert d p.1 p.2) (fun i q hq => by
      have := h (i + 1) q hq
      rw [show j + 1 + i = j + (i + 1) by omega]
      exact this)]
    rw [List.length_cons, show j + 1 + nd.length = j + (nd.length + 1) by omega]
    rfl

theorem flatten_get {α : Type} (pre suf : List (List α)) (x : List α) (i : Nat) (p : α) (h : x[i]? = some p) :
    (pre ++ x :: suf).flatten[pre.flatten.length + i]? = some p := by
  rw [List.flatten_append, List.getElem?_append_right (by omega), Nat.add_sub_cancel_left, List.flatten_cons,
    List.getElem?_append_left (List.getElem?_eq_some_iff.mp h).1, h]

theorem pySpecies_spec (st : List ND) (f : Flat) (hf : f = ⟨st.map (fun nd => (nd.length : Int)),
    st.flatten.map Prod.fst, st.flatten.map Prod.snd⟩) : ∀ (suf pre : List ND) (names : List Name) (all : SMap Name ND),
    st = pre ++ suf → names.length = suf.length →
    pySpecies f names pre.length pre.flatten.length all = .ok (put all (names.zip (suf.map (put [])))) := by
  intro suf
  induction suf with
  | nil =>
    intro pre names all _ h
    cases names with
    | nil => rfl
    | cons _ _ => simp at h
  | cons nd suf ih =>
    intro pre names all hs h
    cases names with
    | nil => simp at h
    | cons n names =>
      have g : pyIdx f.nelt pre.length = .ok (nd.length : Int) := by
        unfold pyIdx
        rw [hf, hs]
        simp
      unfold pySpecies
      rw [g]
      simp only [Out.ok_bind, Int.toNat_natCast]
      rw [pyElements_spec f.elts f.coef nd pre.flatten.length [] (fun i p hp => by
        have := flatten_get pre suf nd i p hp
        rw [← hs] at this
        rw [hf]
        simp only [List.getElem?_map, this, Option.map_some, and_self])]
      simp only [Out.ok_bind]
      have e := ih (pre ++ [nd]) names (insert all n (put [] nd)) (by rw [hs]; simp) (by simpa using h)
      rw [List.flatten_append, List.length_append, List.length_append] at e
      simp only [List.length_singleton, List.flatten_cons, List.flatten_nil, List.append_nil] at e
      rw [e]
      rfl

theorem stoich_sorted (x : List (Raw × Nat)) : ∀ nd ∈ (listsOf x).stoich, Sorted nd := by
  intro nd h
  rw [(listsOf_columns x).2.2.2, List.mem_map] at h
  obtain ⟨p, _, rfl⟩ := h
  have hs : Sorted (ofElements p.1.elements) := by
    unfold ofElements
    generalize hd : ([] : ND) = d
    have h0 : Sorted d := by rw [← hd]; exact List.Pairwise.nil
    clear hd
    induction p.1.elements generalizing d with
    | nil => exact h0
    | cons q l ih => exact ih _ (sorted_insert h0 _ _)
  unfold add
  split
  · exact sorted_insert hs _ _
  · exact sorted_insert hs _ _

/-! ## Theorems -/

/-- **C211.** After every history of calls of `FindComponents`, for a database whose species have different names: the dictionary of Python has
an entry for exactly the species in the model, which gives the elements of that species with their coefficients, its charge, and nothing else. -/
theorem python_stoichiometry (rs : List Run) (s : List Raw) (ph : List Phase) (deleted : Bool) (later : List Run)
    (hl : ∀ r ∈ later, r = .failed) (hn : (s.map Raw.name).Nodup) :
    ∃ d, stoichiometry (after (rs ++ .done s ph deleted :: later)).lists = .ok d ∧
      (∀ x ∈ s, x.inn = true → Plain x → ∃ nd, OMap.find d x.name = some nd ∧ Stoichiometry x nd) ∧
      ∀ n nd, OMap.find d n = some nd → ∃ x ∈ s, x.inn = true ∧ x.name = n := by
  rw [after_lists rs s ph deleted later hl]
  obtain ⟨c1, _, _, c4⟩ := listsOf_columns (sx s)
  have hlen : (listsOf (sx s)).names.length = (listsOf (sx s)).stoich.length := by rw [c1, c4]; simp
  have e1 := fillStoich_spec [] (listsOf (sx s)).stoich (listsOf (sx s)).names ⟨[], [], []⟩ hlen
  have e2 := pySpecies_spec (listsOf (sx s)).stoich _ rfl (listsOf (sx s)).stoich [] (listsOf (sx s)).names [] rfl hlen
  simp only [List.nil_append, List.length_nil, List.flatten_nil] at e1 e2
  have hnd : (((listsOf (sx s)).names.zip ((listsOf (sx s)).stoich.map (put []))).map Prod.fst).Nodup := by
    rw [List.map_fst_zip (by rw [List.length_map]; omega), c1]
    refine List.Nodup.sublist ?_ hn
    have : s.map Raw.name = s.zipIdx.map (fun p => p.1.name) := by
      conv_lhs => rw [← List.zipIdx_map_fst 0 s, List.map_map]
      rfl
    rw [this]
    exact List.filter_sublist.map _
  refine ⟨put [] ((listsOf (sx s)).names.zip ((listsOf (sx s)).stoich.map (put []))), ?_, ?_, ?_⟩
  · unfold stoichiometry
    rw [e1]
    simp only [Out.ok_bind]
    exact e2
  · intro x hx hi hp
    obtain ⟨k, hk⟩ := List.mem_iff_getElem?.mp hx
    obtain ⟨r, hr⟩ := List.mem_iff_getElem?.mp ((mem_sx s x k).mpr ⟨hk, hi⟩)
    have g1 : (listsOf (sx s)).names[r]? = some x.name := by rw [c1, List.getElem?_map, hr]; rfl
    have g2 : (listsOf (sx s)).stoich[r]? = some (add (ofElements x.elements) "Charge".toList x.z) := by
      rw [c4, List.getElem?_map, hr]; rfl
    have hsort := stoich_sorted (sx s) _ (List.mem_of_getElem? g2)
    refine ⟨put [] (add (ofElements x.elements) "Charge".toList x.z), ?_, ?_⟩
    · refine (put_find _ [] x.name hnd).1 _ (List.mem_of_getElem? (i := r) ?_)
      rw [List.getElem?_zip_eq_some]
      exact ⟨g1, by rw [List.getElem?_map, g2]; rfl⟩
    · obtain ⟨a, b, c⟩ := stoichiometry_of x hp
      refine ⟨fun el v h => ?_, ?_, fun el h h' => ?_⟩
      · rw [put_same hsort]; exact a el v h
      · rw [put_same hsort]; exact b
      · rw [put_same hsort]; exact c el h h'
  · intro n nd h
    by_contra hne
    have h2 := (put_find _ [] n hnd).2 (by
      rw [List.map_fst_zip (by rw [List.length_map]; omega), c1]
      intro hm
      obtain ⟨p, hp, rfl⟩ := List.mem_map.mp hm
      obtain ⟨h3, h4⟩ := (mem_sx s p.1 p.2).mp hp
      exact hne ⟨p.1, List.mem_of_getElem? h3, h4, rfl⟩)
    rw [h2] at h
    cases h

theorem flatBack_spec (back : List (List Int)) :
    flatBack back = (back.map (fun b => (b.length : Int)), back.flatten) := by
  have gen : ∀ (l : List (List Int)) (o : List Int × List Int),
      l.foldl (fun o b => (o.1 ++ [(b.length : Int)], o.2 ++ b)) o =
        (o.1 ++ l.map (fun b => (b.length : Int)), o.2 ++ l.flatten) := by
    intro l
    induction l with
    | nil => intro o; simp
    | cons b l ih => intro o; rw [List.foldl_cons, ih]; simp
  rw [flatBack, gen]
  simp

theorem pyCells_spec (cells : List Int) : ∀ (b : List Int) (j : Nat) (acc : List Int),
    (∀ i c, b[i]? = some c → cells[j + i]? = some c) →
    pyCells cells b.length j acc = .ok (j + b.length, acc ++ b) := by
  intro b
  induction b with
  | nil => intro j acc _; simp [pyCells]
  | cons c b ih =>
    intro j acc h
    have h0 := h 0 c rfl
    rw [Nat.add_zero] at h0
    show (do
      let c ← pyIdx cells j
      pyCells cells b.length (j + 1) (acc ++ [c])) = _
    unfold pyIdx
    rw [h0]
    simp only [Out.ok_bind]
    rw [ih (j + 1) (acc ++ [c]) (fun i q hq => by
      rw [show j + 1 + i = j + (i + 1) by omega]
      exact h (i + 1) q hq)]
    rw [List.length_cons, show j + 1 + b.length = j + (b.length + 1) by omega, List.append_assoc]
    rfl

theorem pyBack_spec (back : List (List Int)) : ∀ (suf pre : List (List Int)) (all : SMap Nat (List Int)),
    back = pre ++ suf →
    pyBack back.flatten (suf.map (fun b => (b.length : Int))) pre.length pre.flatten.length all =
      .ok (put all ((suf.zipIdx pre.length).map Prod.swap)) := by
  intro suf
  induction suf with
  | nil => intro pre all _; rfl
  | cons b suf ih =>
    intro pre all hs
    rw [List.map_cons]
    unfold pyBack
    rw [Int.toNat_natCast, pyCells_spec back.flatten b pre.flatten.length [] (fun i c hc => by
      rw [hs]; exact flatten_get pre suf b i c hc)]
    simp only [Out.ok_bind, List.nil_append]
    have e := ih (pre ++ [b]) (insert all pre.length b) (by rw [hs]; simp)
    rw [List.flatten_append, List.length_append, List.length_append] at e
    simp only [List.length_singleton, List.flatten_cons, List.flatten_nil, List.append_nil] at e
    rw [e]
    rfl

/-- **C212.** The dictionary of Python gives, for every reaction cell, its grid cells in the order of the backward mapping, and has no entry
for other numbers. Cells without grid cells and an empty mapping are included. -/
theorem python_backward (back : List (List Int)) :
    ∃ d, backwardMapping back = .ok d ∧ ∀ i, OMap.find d i = back[i]? := by
  have e := pyBack_spec back back [] [] rfl
  refine ⟨put [] ((back.zipIdx).map Prod.swap), ?_, ?_⟩
  · unfold backwardMapping
    rw [flatBack_spec]
    exact e
  · intro i
    have hk : ((back.zipIdx).map Prod.swap).map Prod.fst = back.zipIdx.map Prod.snd := by
      rw [List.map_map]; rfl
    obtain ⟨h1, h2⟩ := put_find ((back.zipIdx).map Prod.swap) [] i (by
      rw [hk, List.zipIdx_map_snd]
      exact List.nodup_range')
    cases hb : back[i]? with
    | some b =>
      exact h1 b (List.mem_map.mpr ⟨(b, i), List.mem_zipIdx_iff_getElem?.mpr hb, rfl⟩)
    | none =>
      rw [h2]
      · rfl
      · rw [hk]
        intro hm
        obtain ⟨⟨b, j⟩, hp, rfl⟩ := List.mem_map.mp hm
        have hp := List.mem_zipIdx_iff_getElem?.mp hp
        dsimp only at hp hb
        rw [hb] at hp
        cases hp

/-- **C211, the function of the class alone.** It adds to three of the four lists it is given: a second call with the same lists gives twice
as many counts as species. Python always gives new lists. -/
theorem stale_lists (st : List ND) (names : List Name) (h : names.length = st.length) (h0 : names ≠ []) :
    ∃ f g, fillStoich st names 0 ⟨[], [], []⟩ = .ok f ∧ fillStoich st names 0 f = .ok g ∧
      f.nelt.length = names.length ∧ g.nelt.length ≠ names.length := by
  have e := fillStoich_spec [] st names
  simp only [List.nil_append, List.length_nil] at e
  refine ⟨_, _, e ⟨[], [], []⟩ h, e _ h, by simp [h], ?_⟩
  have := List.length_pos_iff.mpr h0
  simp only [List.nil_append, List.length_append, List.length_map]
  omega

namespace Demo

open Verif.Catalog.Demo

/-- Water and sodium with an absent species between them. -/
theorem stoichiometry_case : stoichiometry (after [.done [water, absent, sodium] [halite] true]).lists =
    .ok [("H2O".toList, [("Charge".toList, 0), ("H".toList, 2), ("O".toList, 1)]),
      ("Na+".toList, [("Charge".toList, 1), ("Na".toList, 1)])] ∧
    ([water, absent, sodium].map Raw.name).Nodup := by
  exact ⟨by decide +kernel, by decide +kernel⟩

/-- Three reaction cells, the second without grid cells. -/
example : backwardMapping [[0, 3], [], [1, 2, 5]] = .ok [(0, [0, 3]), (1, []), (2, [1, 2, 5])] := by
  decide +kernel

end Demo

end Verif.Python
