import Verif.NameDouble.Model
import Verif.NameDouble.Spec
import Mathlib.Tactic.Ring
import Mathlib.Tactic.SplitIfs
import Mathlib.Data.List.TakeWhile
import Mathlib.Tactic.Linarith

/-! # Helper lemmas for named values -/

namespace Verif.NameDouble

open Verif.OMap

theorem val_insert (m : ND) (k k' : Name) (v : ℚ) :
    val (insert m k v) k' = if k' = k then v else val m k' := by
  unfold val; rw [find_insert]
  by_cases e : k' = k <;> simp [e]

theorem val_of_none {m : ND} {k : Name} (h : k ∉ keys m) : val m k = 0 := by
  unfold val; rw [(find_eq_none_iff m k).mpr h]

theorem val_cons (a : Name) (w : ℚ) (m : ND) (k : Name) :
    val ((a, w) :: m) k = if k = a then w else val m k := by
  unfold val
  simp only [find]
  by_cases e : k = a <;> simp [e]

theorem val_addEntry (f : ℚ) (m : ND) (p : Name × ℚ) (k : Name) :
    val (addEntry f m p) k = if k = p.1 then val m k + p.2 * f else val m k := by
  unfold addEntry
  split
  · rename_i cur h
    rw [val_insert]
    by_cases e : k = p.1
    · subst e; simp [val, h]
    · simp [e]
  · rename_i h
    rw [val_insert]
    by_cases e : k = p.1
    · subst e; simp [val, h]
    · simp [e]

theorem sorted_addEntry (f : ℚ) {m : ND} (hs : Sorted m) (p : Name × ℚ) :
    Sorted (addEntry f m p) := by
  unfold addEntry; split <;> exact sorted_insert hs _ _

theorem keys_addEntry (f : ℚ) (m : ND) (p : Name × ℚ) (k : Name) :
    k ∈ keys (addEntry f m p) ↔ k = p.1 ∨ k ∈ keys m := by
  unfold addEntry; split <;> exact mem_keys_insert _ _ _ _

theorem not_mem_keys_of_sorted {a : Name} {v : ℚ} {m : ND} (hs : Sorted ((a, v) :: m)) :
    a ∉ keys m := by
  intro hk
  obtain ⟨p, hp, e⟩ := List.mem_map.mp hk
  have := (List.pairwise_cons.mp hs).1 p hp
  rw [e] at this
  exact lt_irrefl _ this

theorem val_foldl_addEntry (f : ℚ) (addee m : ND) (hs : Sorted addee) (k : Name) :
    val (addee.foldl (addEntry f) m) k = val m k + f * val addee k := by
  induction addee generalizing m with
  | nil => simp [val, find]
  | cons p addee ih =>
    obtain ⟨a, v⟩ := p
    rw [List.foldl_cons, ih _ (List.pairwise_cons.mp hs).2, val_addEntry, val_cons]
    by_cases e : k = a
    · subst e
      simp only [if_true]
      rw [val_of_none (not_mem_keys_of_sorted hs)]
      ring
    · simp [e]

theorem val_mixEntry (f1 f2 : ℚ) (m : ND) (p : Name × ℚ) (k : Name) :
    val (mixEntry f1 f2 m p) k = if k = p.1 then f1 * val m k + f2 * p.2 else val m k := by
  unfold mixEntry
  split
  · rename_i cur h
    rw [val_insert]
    by_cases e : k = p.1
    · subst e; simp [val, h]
    · simp [e]
  · rename_i h
    rw [val_insert]
    by_cases e : k = p.1
    · subst e; simp [val, h]
    · simp [e]

theorem val_foldl_mixEntry (f1 f2 : ℚ) (addee m : ND) (hs : Sorted addee) (k : Name) :
    val (addee.foldl (mixEntry f1 f2) m) k =
      if k ∈ keys addee then f1 * val m k + f2 * val addee k else val m k := by
  induction addee generalizing m with
  | nil => simp [keys]
  | cons p addee ih =>
    obtain ⟨a, v⟩ := p
    rw [List.foldl_cons, ih _ (List.pairwise_cons.mp hs).2, val_mixEntry, val_cons]
    have hn := not_mem_keys_of_sorted hs
    by_cases e : k = a
    · subst e
      have h1 : k ∈ keys ((k, v) :: addee) := by simp [keys]
      rw [if_neg hn, if_pos h1]; simp
    · have h1 : k ∈ keys ((a, v) :: addee) ↔ k ∈ keys addee := by
        unfold keys; rw [List.map_cons, List.mem_cons]; simp [e]
      by_cases h2 : k ∈ keys addee
      · rw [if_pos h2, if_pos (h1.mpr h2)]; simp [e]
      · rw [if_neg h2, if_neg (fun h => h2 (h1.mp h))]; simp [e]

/-! ## Element names -/

theorem isState_iff (n e : Name) : IsState n e ↔ n.takeWhile (· ≠ '(') = e := by
  constructor
  · rintro ⟨h, rfl | ⟨s, rfl⟩⟩
    · rw [List.takeWhile_eq_self_iff]
      intro x hx; simp; rintro rfl; exact h hx
    · rw [List.takeWhile_append_of_pos]
      · simp
      · intro x hx; simp; rintro rfl; exact h hx
  · rintro rfl
    refine ⟨fun h => ?_, ?_⟩
    · have := List.mem_takeWhile_imp h
      simp at this
    · have h := List.takeWhile_append_dropWhile (p := fun c => decide (c ≠ '(')) (l := n)
      cases hd : n.dropWhile (fun c => decide (c ≠ '(')) with
      | nil => left; rw [hd] at h; simpa using h.symm
      | cons c s =>
        right
        have hc : c = '(' := by
          have := List.head?_dropWhile_not (fun c => decide (c ≠ '(')) n
          rw [hd] at this
          simpa using this
        subst hc
        exact ⟨s, by rw [hd] at h; exact h.symm⟩

theorem ename_eq_of_good {n : Name} (h : GoodName n) : ename n = n.takeWhile (· ≠ '(') := by
  obtain ⟨e, he, h⟩ := h
  unfold ename
  have hne : '(' ∉ e := fun hm => lt_irrefl _ (he _ hm)
  rcases h with rfl | ⟨s, rfl, hl⟩
  · split
    · symm
      rw [List.takeWhile_eq_self_iff]
      intro x hx; simp; rintro rfl; exact hne hx
    · rfl
  · rw [if_neg (by omega)]

/-- Lists whose characters all sort after the parenthesis keep their order when cut. -/
theorem cut_le_of_lt {e f a b : Name} (he : ∀ c ∈ e, '(' < c)
    (hb : b = [] ∨ ∃ s, b = '(' :: s)
    (h : e ++ a < f ++ b) : e ≤ f := by
  induction e generalizing f with
  | nil =>
    cases f with
    | nil => exact le_refl _
    | cons y f => exact le_of_lt (List.nil_lt_cons y f)
  | cons x e ih =>
    cases f with
    | nil =>
      exfalso
      simp only [List.cons_append, List.nil_append] at h
      have hx := he x List.mem_cons_self
      rcases hb with rfl | ⟨s, rfl⟩
      · exact absurd h (List.not_lt_nil _)
      · rw [List.cons_lt_cons_iff] at h
        rcases h with h | ⟨h, _⟩
        · exact lt_asymm h hx
        · rw [h] at hx; exact lt_irrefl _ hx
    | cons y f =>
      simp only [List.cons_append] at h
      rw [List.cons_lt_cons_iff] at h
      rcases h with h | ⟨h, h'⟩
      · exact le_of_lt (List.cons_lt_cons_iff.mpr (.inl h))
      · subst h
        have := ih (fun c hc => he c (List.mem_cons_of_mem _ hc)) h'
        rcases lt_or_eq_of_le this with hlt | heq
        · exact le_of_lt (List.cons_lt_cons_iff.mpr (.inr ⟨rfl, hlt⟩))
        · rw [heq]

theorem good_split {n : Name} (h : GoodName n) :
    ∃ a, n = ename n ++ a ∧ (∀ c ∈ ename n, '(' < c) ∧ (a = [] ∨ ∃ s, a = '(' :: s) := by
  rw [ename_eq_of_good h]
  obtain ⟨e, he, h⟩ := h
  have hne : '(' ∉ e := fun hm => lt_irrefl _ (he _ hm)
  have hst : IsState n e := ⟨hne, h.imp id (fun ⟨s, hs, _⟩ => ⟨s, hs⟩)⟩
  rw [(isState_iff _ _).mp hst]
  rcases h with h | ⟨s, h, _⟩
  · exact ⟨[], by simp [h], he, .inl rfl⟩
  · exact ⟨'(' :: s, h, he, .inr ⟨s, rfl⟩⟩

theorem ename_mono {a b : Name} (ha : GoodName a) (hb : GoodName b) (h : a < b) :
    ename a ≤ ename b := by
  obtain ⟨x, hx, h1, _⟩ := good_split ha
  obtain ⟨y, hy, _, h3⟩ := good_split hb
  rw [hx, hy] at h
  exact cut_le_of_lt h1 h3 h

theorem isState_iff_ename {n e : Name} (h : GoodName n) : IsState n e ↔ ename n = e := by
  rw [isState_iff, ename_eq_of_good h]

/-! ## The merge of the two passes -/

/-- Sum of the entries with a given cut name. -/
def esum (nd : ND) (e : Name) : ℚ :=
  match nd with
  | [] => 0
  | (n, v) :: nd => if ename n = e then v + esum nd e else esum nd e

theorem esum_eq_zero {nd : ND} {e : Name} (h : ∀ p ∈ nd, ename p.1 ≠ e) : esum nd e = 0 := by
  induction nd with
  | nil => rfl
  | cons p nd ih =>
    obtain ⟨n, v⟩ := p
    simp only [esum]
    rw [if_neg (h _ List.mem_cons_self)]
    exact ih (fun p hp => h p (List.mem_cons_of_mem _ hp))

theorem keys_join (old new : ND) : keys (join old new) = keys new := by
  induction old, new using join.induct with
  | case1 new => simp [join]
  | case2 => simp [join]
  | case3 n v old e w new h ih => rw [join, if_pos h]; simp_all [keys]
  | case4 n v old w new h ih =>
    rw [join, if_neg h, if_pos rfl, ih]; simp [keys]
  | case5 n v old e w new h1 h2 ih => rw [join, if_neg h1, if_neg h2, ih]

theorem find_join (old new : ND) (ho : old.Pairwise (fun a b => ename a.1 ≤ ename b.1))
    (hn : Sorted new) (k : Name) :
    find (join old new) k = (find new k).map (· + esum old k) := by
  induction old, new using join.induct with
  | case1 new => simp [join, esum]
  | case2 => simp [join, find]
  | case3 n v old e w new h ih =>
    rw [join, if_pos h]
    simp only [find]
    rw [ih ho (List.pairwise_cons.mp hn).2]
    by_cases hk : k = e
    · subst hk
      rw [if_pos rfl, if_pos rfl]
      have : esum ((n, v) :: old) k = 0 := by
        apply esum_eq_zero
        intro p hp
        rcases List.mem_cons.mp hp with rfl | hp
        · exact ne_of_gt h
        · exact ne_of_gt (lt_of_lt_of_le h ((List.pairwise_cons.mp ho).1 p hp))
      simp [this]
    · simp [hk]
  | case4 n v old w new h ih =>
    rw [join, if_neg h, if_pos rfl]
    have hn' : Sorted ((ename n, w + v) :: new) := by
      obtain ⟨h1, h2⟩ := List.pairwise_cons.mp hn
      exact List.pairwise_cons.mpr ⟨h1, h2⟩
    rw [ih (List.pairwise_cons.mp ho).2 hn']
    simp only [find, esum]
    by_cases hk : k = ename n
    · subst hk; simp; ring
    · rw [if_neg hk, if_neg hk, if_neg (fun h : ename n = k => hk h.symm)]
  | case5 n v old e w new h1 h2 ih =>
    rw [join, if_neg h1, if_neg h2]
    rw [ih (List.pairwise_cons.mp ho).2 hn]
    have hlt : ename n < e := lt_of_le_of_ne (le_of_not_gt h1) (fun h => h2 h.symm)
    cases hf : find ((e, w) :: new) k with
    | none => rfl
    | some x =>
      have hmem := mem_of_find hf
      have hle : e ≤ k := by
        rcases List.mem_cons.mp hmem with h | h
        · simp only [Prod.mk.injEq] at h; exact le_of_eq h.1.symm
        · exact le_of_lt ((List.pairwise_cons.mp hn).1 _ h)
      have : ename n ≠ k := ne_of_lt (lt_of_lt_of_le hlt hle)
      simp [esum, this]

theorem enameList_aux (nd m : ND) (hm : Sorted m) :
    let r := nd.foldl (fun m p => if omitted (ename p.1) then m else insert m (ename p.1) 0) m
    Sorted r ∧ ∀ k, find r k =
      if omitted k = false ∧ ∃ p ∈ nd, ename p.1 = k then some 0 else find m k := by
  induction nd generalizing m with
  | nil => exact ⟨hm, fun k => by simp⟩
  | cons p nd ih =>
    simp only [List.foldl_cons]
    by_cases ho : omitted (ename p.1) = true
    · rw [if_pos ho]
      obtain ⟨h1, h2⟩ := ih m hm
      refine ⟨h1, fun k => ?_⟩
      rw [h2 k]
      by_cases hk : ename p.1 = k
      · subst hk; rw [if_neg (by simp [ho]), if_neg (by simp [ho])]
      · simp only [List.mem_cons, exists_eq_or_imp, hk, false_or]
    · rw [if_neg ho]
      obtain ⟨h1, h2⟩ := ih _ (sorted_insert hm (ename p.1) 0)
      refine ⟨h1, fun k => ?_⟩
      rw [h2 k, find_insert]
      by_cases hk : ename p.1 = k
      · subst hk; simp only [List.mem_cons, exists_eq_or_imp, true_or, and_true, if_true]
        have ho' : omitted (ename p.1) = false := by simpa using ho
        rw [if_pos ho']; split_ifs <;> rfl
      · rw [if_neg (fun h : k = ename p.1 => hk h.symm)]
        simp only [List.mem_cons, exists_eq_or_imp, hk, false_or]

theorem total_esum {nd : ND} (hg : ∀ p ∈ nd, GoodName p.1) (e : Name) :
    Total nd e (esum nd e) := by
  induction nd with
  | nil => exact .nil e
  | cons p nd ih =>
    obtain ⟨n, v⟩ := p
    have hn := hg _ List.mem_cons_self
    have := ih (fun p hp => hg p (List.mem_cons_of_mem _ hp))
    simp only [esum]
    split
    · rename_i h; exact .hit ((isState_iff_ename hn).mpr h) this
    · rename_i h; exact .miss (fun hh => h ((isState_iff_ename hn).mp hh)) this

theorem total_unique {nd : ND} {e : Name} {t t' : ℚ} (h : Total nd e t) (h' : Total nd e t') :
    t = t' := by
  induction h generalizing t' with
  | nil => cases h'; rfl
  | hit hs _ ih =>
    cases h' with
    | hit _ h2 => rw [ih h2]
    | miss hn _ => exact absurd hs hn
  | miss hs _ ih =>
    cases h' with
    | hit hn _ => exact absurd hn hs
    | miss _ h2 => exact ih h2

theorem getTotal_aux (nd : ND) (e : Name) (d : ℚ) :
    ∃ t, Total nd e t ∧
      nd.foldl (fun d p => if p.1.takeWhile (· ≠ '(') = e then d + p.2 else d) d = d + t := by
  induction nd generalizing d with
  | nil => exact ⟨0, .nil e, by simp⟩
  | cons p nd ih =>
    obtain ⟨n, v⟩ := p
    rw [List.foldl_cons]
    by_cases h : n.takeWhile (· ≠ '(') = e
    · obtain ⟨t, h1, h2⟩ := ih (d + v)
      refine ⟨v + t, .hit ((isState_iff _ _).mpr h) h1, ?_⟩
      rw [if_pos h, h2]; ring
    · obtain ⟨t, h1, h2⟩ := ih d
      refine ⟨t, .miss (fun hh => h ((isState_iff _ _).mp hh)) h1, ?_⟩
      rw [if_neg h, h2]

/-! ## merge_redox -/

theorem sorted_mergeEntry {m : ND} (hs : Sorted m) (p : Name × ℚ) : Sorted (mergeEntry m p) := by
  unfold mergeEntry
  split
  · exact sorted_insert (sorted_erase hs _) _ _
  · exact sorted_insert (sorted_filter hs _) _ _

theorem find_mergeEntry (m : ND) (p : Name × ℚ) (k : Name) :
    find (mergeEntry m p) k =
      if k = p.1 then some p.2
      else if '(' ∈ p.1 then (if k = cutName p.1 then none else find m k)
      else if p.1 ++ ['('] <+: k then none else find m k := by
  unfold mergeEntry
  split
  · rw [find_insert, find_erase]; split_ifs <;> rfl
  · rw [find_insert]
    rw [find_filter_key m (fun x => !((p.1 ++ ['(']).isPrefixOf x)) k]
    by_cases h : p.1 ++ ['('] <+: k
    · have : (p.1 ++ ['(']).isPrefixOf k = true := List.isPrefixOf_iff_prefix.mpr h
      simp [h, this]
    · have : (p.1 ++ ['(']).isPrefixOf k = false := by
        rw [← Bool.not_eq_true, List.isPrefixOf_iff_prefix]; exact h
      simp [h, this]

end Verif.NameDouble
