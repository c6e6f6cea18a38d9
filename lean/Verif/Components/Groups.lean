import Verif.Components.Props
import Mathlib.Data.List.Nodup

/-!
# C71: solid solutions that share components are merged into exclusive groups
-/

namespace Verif.Components

open Verif.OMap

theorem common_iff (a b : List Name) : common a b = true ↔ ∃ x, x ∈ a ∧ x ∈ b := by
  unfold common
  rw [List.any_eq_true]
  constructor
  · rintro ⟨x, h1, h2⟩; exact ⟨x, by simpa using h2, h1⟩
  · rintro ⟨x, h1, h2⟩; exact ⟨x, h2, by simpa using h1⟩

/-- A merge: set `j` is put into set `i` and cleared. -/
def Merge (l r : List (List Name)) : Prop :=
  ∃ (i j : Nat) (a b : List Name), i < j ∧ l[i]? = some a ∧ l[j]? = some b ∧
    (∃ x, x ∈ a ∧ x ∈ b) ∧ r = (l.set i (OSet.insAll a b)).set j []

theorem mergeInto_spec {a : List Name} {bs : List (List Name)} {r} (h : mergeInto a bs = some r) :
    ∃ (j : Nat) (b : List Name), bs[j]? = some b ∧ (∃ x, x ∈ a ∧ x ∈ b) ∧
      r = (OSet.insAll a b, bs.set j []) := by
  induction bs generalizing r with
  | nil => simp [mergeInto] at h
  | cons b bs ih =>
    simp only [mergeInto] at h
    split at h
    · rename_i hc
      simp only [Option.some.injEq] at h
      exact ⟨0, b, rfl, (common_iff _ _).mp hc, h.symm⟩
    · split at h
      · rename_i r' hr'
        simp only [Option.some.injEq] at h
        obtain ⟨j, b', h1, h2, h3⟩ := ih hr'
        exact ⟨j + 1, b', by simpa using h1, h2, by rw [← h, h3]; rfl⟩
      · simp at h

theorem mergeOnce_spec {l r : List (List Name)} (h : mergeOnce l = some r) : Merge l r := by
  induction l generalizing r with
  | nil => simp [mergeOnce] at h
  | cons a l ih =>
    simp only [mergeOnce] at h
    split at h
    · rename_i q hq
      simp only [Option.some.injEq] at h
      obtain ⟨j, b, h1, h2, h3⟩ := mergeInto_spec hq
      refine ⟨0, j + 1, a, b, by omega, rfl, by simpa using h1, h2, ?_⟩
      rw [← h, h3]; rfl
    · split at h
      · rename_i q hq
        simp only [Option.some.injEq] at h
        obtain ⟨i, j, x, b, h0, h1, h2, h3, h4⟩ := ih hq
        refine ⟨i + 1, j + 1, x, b, by omega, by simpa using h1, by simpa using h2, h3, ?_⟩
        rw [← h, h4]; rfl
      · simp at h

theorem mergeInto_none {a : List Name} {bs : List (List Name)} (h : mergeInto a bs = none) :
    ∀ b ∈ bs, ∀ x, x ∈ a → x ∉ b := by
  induction bs with
  | nil => simp
  | cons b bs ih =>
    simp only [mergeInto] at h
    split at h
    · simp at h
    · rename_i hc
      split at h
      · simp at h
      · rename_i hr
        intro b' hb' x hx hx'
        rcases List.mem_cons.mp hb' with e | e
        · subst e
          exact hc ((common_iff _ _).mpr ⟨x, hx, hx'⟩)
        · exact ih hr b' e x hx hx'

theorem mergeOnce_none {l : List (List Name)} (h : mergeOnce l = none) :
    l.Pairwise (fun a b => ∀ x, x ∈ a → x ∉ b) := by
  induction l with
  | nil => exact List.Pairwise.nil
  | cons a l ih =>
    simp only [mergeOnce] at h
    split at h
    · simp at h
    · rename_i hq
      split at h
      · simp at h
      · rename_i hr
        exact List.pairwise_cons.mpr ⟨mergeInto_none hq, ih hr⟩

/-- What stays true through the merges, relative to the sets at the beginning. -/
structure Inv (orig l : List (List Name)) : Prop where
  len : l.length = orig.length
  sorted : ∀ s ∈ l, OSet.Sorted s
  /-- every member is linked to a member of the original set -/
  sound : ∀ (k : Nat) (s o : List Name), l[k]? = some s → orig[k]? = some o → ∀ c ∈ s,
    ∃ b ∈ o, Relation.ReflTransGen (fun a b => ∃ p ∈ orig, a ∈ p ∧ b ∈ p) c b
  /-- sets are moved as a whole -/
  whole : ∀ o ∈ orig, o = [] ∨ ∃ s ∈ l, ∀ c ∈ o, c ∈ s

theorem Inv.start {orig : List (List Name)} (h : ∀ s ∈ orig, OSet.Sorted s) : Inv orig orig where
  len := rfl
  sorted := h
  sound := by
    intro k s o h1 h2 c hc
    rw [h1] at h2
    cases h2
    exact ⟨c, hc, Relation.ReflTransGen.refl⟩
  whole := fun o ho => .inr ⟨o, ho, fun c hc => hc⟩

theorem linked_symm {orig : List (List Name)} {c d : Name}
    (h : Relation.ReflTransGen (fun a b => ∃ p ∈ orig, a ∈ p ∧ b ∈ p) c d) :
    Relation.ReflTransGen (fun a b => ∃ p ∈ orig, a ∈ p ∧ b ∈ p) d c := by
  induction h with
  | refl => exact Relation.ReflTransGen.refl
  | tail _ h2 ih =>
    obtain ⟨p, hp, ha, hb⟩ := h2
    exact Relation.ReflTransGen.head ⟨p, hp, hb, ha⟩ ih

theorem Inv.merge {orig l r : List (List Name)} (h : Inv orig l) (hm : Merge l r) : Inv orig r := by
  obtain ⟨i, j, a, b, hij, hi, hj, ⟨x, hxa, hxb⟩, rfl⟩ := hm
  have hil := (List.getElem?_eq_some_iff.mp hi).1
  have hjl := (List.getElem?_eq_some_iff.mp hj).1
  have ham : a ∈ l := List.mem_of_getElem? hi
  have hbm : b ∈ l := List.mem_of_getElem? hj
  refine ⟨by simp [h.len], ?_, ?_, ?_⟩
  · intro s hs
    rcases List.mem_or_eq_of_mem_set hs with hs | hs
    · rcases List.mem_or_eq_of_mem_set hs with hs | hs
      · exact h.sorted s hs
      · subst hs; exact OSet.sorted_insAll (h.sorted a ham) _
    · subst hs; exact List.Pairwise.nil
  · intro k s o hk ho c hc
    rw [List.getElem?_set] at hk
    by_cases ekj : j = k
    · subst ekj
      simp only [if_true, List.length_set, hjl, Option.some.injEq] at hk
      subst hk
      simp at hc
    · rw [if_neg ekj, List.getElem?_set] at hk
      by_cases eki : i = k
      · subst eki
        simp only [if_true, hil, Option.some.injEq] at hk
        subst hk
        rcases (OSet.mem_insAll _ _ _).mp hc with hc | hc
        · exact h.sound i a o hi ho c hc
        · obtain ⟨y, hy1, hy2⟩ := h.sound i a o hi ho x hxa
          have hjo : j < orig.length := by rw [← h.len]; exact hjl
          have hjo' := List.getElem?_eq_getElem hjo
          obtain ⟨z1, hz1, hz2⟩ := h.sound j b _ hj hjo' x hxb
          obtain ⟨z2, hz3, hz4⟩ := h.sound j b _ hj hjo' c hc
          refine ⟨y, hy1, ?_⟩
          refine Relation.ReflTransGen.trans hz4 (Relation.ReflTransGen.head
            ⟨_, List.getElem_mem hjo, hz3, hz1⟩ (Relation.ReflTransGen.trans (linked_symm hz2) hy2))
      · rw [if_neg eki] at hk
        exact h.sound k s o hk ho c hc
  · intro o ho
    rcases h.whole o ho with h0 | ⟨s, hs, hc⟩
    · exact .inl h0
    · have hm2 : OSet.insAll a b ∈ (l.set i (OSet.insAll a b)).set j [] := by
        apply List.mem_iff_getElem?.mpr
        refine ⟨i, ?_⟩
        rw [List.getElem?_set, if_neg (by omega), List.getElem?_set, if_pos rfl, if_pos hil]
      obtain ⟨k, hk⟩ := List.mem_iff_getElem?.mp hs
      by_cases eki : i = k
      · subst eki
        rw [hi] at hk
        cases hk
        exact .inr ⟨_, hm2, fun c h => (OSet.mem_insAll _ _ _).mpr (.inl (hc c h))⟩
      · by_cases ekj : j = k
        · subst ekj
          rw [hj] at hk
          cases hk
          exact .inr ⟨_, hm2, fun c h => (OSet.mem_insAll _ _ _).mpr (.inr (hc c h))⟩
        · refine .inr ⟨s, ?_, hc⟩
          apply List.mem_iff_getElem?.mpr
          exact ⟨k, by rw [List.getElem?_set, if_neg ekj, List.getElem?_set, if_neg eki]; exact hk⟩

theorem mergeAll_spec {orig : List (List Name)} (l : List (List Name)) (h : Inv orig l) :
    Inv orig (mergeAll l) ∧ (mergeAll l).Pairwise (fun a b => ∀ x, x ∈ a → x ∉ b) := by
  induction hn : nonEmpty l using Nat.strong_induction_on generalizing l with
  | _ n ih =>
    rw [mergeAll.eq_def]
    split
    · rename_i h0
      exact ⟨h, mergeOnce_none h0⟩
    · rename_i r hr
      exact ih _ (by rw [← hn]; exact mergeOnce_nonEmpty hr) r (h.merge (mergeOnce_spec hr)) rfl

theorem zip_fst_snd {α β : Type} (l : List (α × β)) : (l.map Prod.fst).zip (l.map Prod.snd) = l := by
  induction l with
  | nil => rfl
  | cons a l ih => simp [ih]

theorem disjoint_same {l : List (List Name)} (h : l.Pairwise (fun a b => ∀ x, x ∈ a → x ∉ b))
    {i j : Nat} {a b : List Name} {x : Name} (hi : l[i]? = some a) (hj : l[j]? = some b)
    (ha : x ∈ a) (hb : x ∈ b) : i = j := by
  obtain ⟨hi1, hi2⟩ := List.getElem?_eq_some_iff.mp hi
  obtain ⟨hj1, hj2⟩ := List.getElem?_eq_some_iff.mp hj
  rcases Nat.lt_trichotomy i j with e | e | e
  · have := List.pairwise_iff_getElem.mp h i j hi1 hj1 e x (by rw [hi2]; exact ha)
    exact absurd (by rw [hj2]; exact hb) this
  · exact e
  · have := List.pairwise_iff_getElem.mp h j i hj1 hi1 e x (by rw [hj2]; exact hb)
    exact absurd (by rw [hi2]; exact ha) this

/-- A pair of the two lists is a name at some position with a member of the final set there. -/
theorem mem_pairs (sss : List (Name × List Name)) (c n : Name) :
    (c, n) ∈ (listSolidSolutions sss).1.zip (listSolidSolutions sss).2 ↔
      ∃ (k : Nat) (s : List Name), (sss.map Prod.fst)[k]? = some n ∧
        (mergeAll (sss.map Prod.snd))[k]? = some s ∧ c ∈ s := by
  unfold listSolidSolutions
  simp only
  rw [zip_fst_snd, List.mem_flatMap]
  constructor
  · rintro ⟨p, hp, hc⟩
    obtain ⟨k, hk⟩ := List.mem_iff_getElem?.mp hp
    rw [List.getElem?_zip_eq_some] at hk
    simp only [List.mem_map, Prod.mk.injEq] at hc
    obtain ⟨y, hy, rfl, rfl⟩ := hc
    exact ⟨k, p.2, hk.1, hk.2, hy⟩
  · rintro ⟨k, s, h1, h2, h3⟩
    refine ⟨(n, s), List.mem_iff_getElem?.mpr ⟨k, ?_⟩, by simpa using h3⟩
    rw [List.getElem?_zip_eq_some]
    exact ⟨h1, h2⟩

theorem fst_mem_pairs (sss : List (Name × List Name)) (c : Name) :
    c ∈ (listSolidSolutions sss).1 ↔
      ∃ n, (c, n) ∈ (listSolidSolutions sss).1.zip (listSolidSolutions sss).2 := by
  unfold listSolidSolutions
  simp only
  rw [zip_fst_snd, List.mem_map]
  constructor
  · rintro ⟨⟨a, n⟩, h, rfl⟩; exact ⟨n, h⟩
  · rintro ⟨n, h⟩; exact ⟨_, h, rfl⟩

theorem linked_eq (sss : List (Name × List Name)) :
    Relation.ReflTransGen (fun a b => ∃ p ∈ sss.map Prod.snd, a ∈ p ∧ b ∈ p) = Linked sss := by
  unfold Linked
  congr 1
  funext a b
  apply propext
  constructor
  · rintro ⟨p, hp, h⟩
    obtain ⟨q, hq, rfl⟩ := List.mem_map.mp hp
    exact ⟨q, hq, h⟩
  · rintro ⟨p, hp, h⟩
    exact ⟨p.2, List.mem_map_of_mem hp, h⟩

/-- **C71.** The two lists are equally long; every component of every solid solution is listed
exactly once; it is listed under the name of a solid solution with which it is linked; and linked
components are listed under the same name. -/
theorem ss_groups (sss : List (Name × List Name)) (hs : ∀ p ∈ sss, OSet.Sorted p.2) :
    let L := listSolidSolutions sss
    L.1.length = L.2.length ∧ L.1.Nodup ∧ (∀ c, c ∈ L.1 ↔ ∃ p ∈ sss, c ∈ p.2) ∧
    (∀ c n, (c, n) ∈ L.1.zip L.2 → ∃ p ∈ sss, p.1 = n ∧ ∃ b ∈ p.2, Linked sss c b) ∧
    (∀ c n d m, (c, n) ∈ L.1.zip L.2 → (d, m) ∈ L.1.zip L.2 → Linked sss c d → n = m) := by
  intro L
  have hinv := mergeAll_spec (sss.map Prod.snd) (Inv.start (orig := sss.map Prod.snd) (by
    intro s hs'
    obtain ⟨p, hp, rfl⟩ := List.mem_map.mp hs'
    exact hs p hp))
  obtain ⟨inv, hdis⟩ := hinv
  have hlen : (sss.map Prod.fst).length = (mergeAll (sss.map Prod.snd)).length := by
    rw [inv.len]; simp
  have hsound : ∀ c n, (c, n) ∈ L.1.zip L.2 → ∃ p ∈ sss, p.1 = n ∧ ∃ b ∈ p.2, Linked sss c b := by
    intro c n h
    obtain ⟨k, s, h1, h2, h3⟩ := (mem_pairs sss c n).mp h
    rw [List.getElem?_map] at h1
    cases hk : sss[k]? with
    | none => rw [hk] at h1; simp at h1
    | some p =>
      rw [hk] at h1
      simp only [Option.map_some, Option.some.injEq] at h1
      obtain ⟨b, hb, hl⟩ := inv.sound k s p.2 h2 (by rw [List.getElem?_map, hk]; rfl) c h3
      exact ⟨p, List.mem_of_getElem? hk, h1, b, hb, by rw [← linked_eq]; exact hl⟩
  -- every member of an original set is in a final set
  have hfin : ∀ p ∈ sss, p.2 = [] ∨ ∃ (k : Nat) (s : List Name),
      (mergeAll (sss.map Prod.snd))[k]? = some s ∧ ∀ c ∈ p.2, c ∈ s := by
    intro p hp
    rcases inv.whole p.2 (List.mem_map_of_mem hp) with h0 | ⟨s, h1, h2⟩
    · exact .inl h0
    · obtain ⟨k, hk⟩ := List.mem_iff_getElem?.mp h1
      exact .inr ⟨k, s, hk, h2⟩
  refine ⟨by simp [L, listSolidSolutions], ?_, ?_, hsound, ?_⟩
  · have e : L.1 = (mergeAll (sss.map Prod.snd)).flatten := by
      have g : ∀ (A : List Name) (B : List (List Name)), A.length = B.length →
          ((A.zip B).flatMap (fun p => p.2.map (fun c => (c, p.1)))).map Prod.fst = B.flatten := by
        intro A B
        induction B generalizing A with
        | nil => intro h; cases A <;> simp at h ⊢
        | cons b B ih =>
          intro h
          cases A with
          | nil => simp at h
          | cons a A =>
            simp only [List.zip_cons_cons, List.flatMap_cons, List.map_append, List.flatten_cons]
            rw [ih A (by simpa using h)]
            congr 1
            simp [Function.comp_def]
      exact g _ _ hlen
    rw [e]
    refine List.nodup_flatten.mpr ⟨fun s h => OSet.nodup (inv.sorted s h), ?_⟩
    exact hdis.imp (fun h => List.disjoint_left.mpr (fun x hx => h x hx))
  · intro c
    rw [fst_mem_pairs]
    constructor
    · rintro ⟨n, h⟩
      obtain ⟨p, hp, -, b, hb, hl⟩ := hsound c n h
      rcases Relation.ReflTransGen.cases_head hl with e | ⟨d, ⟨q, hq, hc, -⟩, -⟩
      · subst e; exact ⟨p, hp, hb⟩
      · exact ⟨q, hq, hc⟩
    · rintro ⟨p, hp, hc⟩
      rcases hfin p hp with h0 | ⟨k, s, hk, hall⟩
      · rw [h0] at hc; simp at hc
      · have hkl : k < (sss.map Prod.fst).length := by
          rw [hlen]; exact (List.getElem?_eq_some_iff.mp hk).1
        exact ⟨_, (mem_pairs sss c _).mpr ⟨k, s, List.getElem?_eq_getElem hkl, hk, hall c hc⟩⟩
  · intro c n d m h h' hl
    obtain ⟨k, s, h1, h2, h3⟩ := (mem_pairs sss c n).mp h
    obtain ⟨k', s', h1', h2', h3'⟩ := (mem_pairs sss d m).mp h'
    have hsame : ∀ x, Linked sss c x → x ∈ s := by
      intro x hx
      induction hx with
      | refl => exact h3
      | tail _ hstep ih =>
        obtain ⟨p, hp, ha, hb⟩ := hstep
        rcases hfin p hp with h0 | ⟨i, u, hi, hall⟩
        · rw [h0] at ha; simp at ha
        · have := disjoint_same hdis h2 hi ih (hall _ ha)
          subst this
          rw [h2] at hi
          cases hi
          exact hall _ hb
    have := disjoint_same hdis h2 h2' (hsame d hl) h3'
    subst this
    rw [h1] at h1'
    cases h1'
    rfl

/-- Case: three solid solutions, the first and the last linked through the second. -/
example : listSolidSolutions
    [("A".toList, ["a".toList, "b".toList]), ("D".toList, ["d".toList]),
     ("B".toList, ["c".toList, "e".toList]), ("C".toList, ["b".toList, "c".toList])] =
    (["a".toList, "b".toList, "c".toList, "e".toList, "d".toList],
     ["A".toList, "A".toList, "A".toList, "A".toList, "D".toList]) := by
  decide +kernel

/-- **C29, first call.** When no two solid solutions share a component, the first call of
`FindComponents` lists every component once, under the name of a solid solution that contains
it. -/
theorem ss_first_call_partial (sss : List (Name × List Name)) (hs : ∀ p ∈ sss, OSet.Sorted p.2)
    (hd : ∀ p ∈ sss, ∀ q ∈ sss, ∀ c, c ∈ p.2 → c ∈ q.2 → p = q)
    (b : Bool) (w : Source) (hw : w.Paired)
    (hc : w.ssComps = (listSolidSolutions sss).1) (hn : w.ssNames = (listSolidSolutions sss).2)
    {n : Int} {s : State} (h : findComponents { State.new with h2o := b } w = .ok (n, s))
    (hok : n ≠ -7) :
    (∀ c m, (c, m) ∈ s.ssComps.zip s.ssNames → ∃ p ∈ sss, p.1 = m ∧ c ∈ p.2) ∧
    (∀ p ∈ sss, ∀ c ∈ p.2, (c, p.1) ∈ s.ssComps.zip s.ssNames) := by
  obtain ⟨g1, g2, g3, g4, g5⟩ := ss_groups sss hs
  have hlink : ∀ p ∈ sss, ∀ x y, Linked sss x y → y ∈ p.2 → x ∈ p.2 := by
    intro p hp x y hxy
    induction hxy with
    | refl => exact fun h => h
    | tail _ hstep ih =>
      intro hy
      obtain ⟨q, hq, ha, hb⟩ := hstep
      have := hd q hq p hp _ hb hy
      subst this
      exact ih ha
  have key := fun c m => ss_names_partial (paired_new b) hw (by simp [State.new])
    w.ssComps [] (by simp) (by rw [hc]; exact g2) (by simp [State.new]) (by simp) h hok c m
  have sound : ∀ c m, (c, m) ∈ s.ssComps.zip s.ssNames → ∃ p ∈ sss, p.1 = m ∧ c ∈ p.2 := by
    intro c m hcm
    rcases (key c m).mp hcm with h' | h'
    · simp [State.new] at h'
    · rw [hc, hn] at h'
      obtain ⟨p, hp, e, y, hy, hl⟩ := g4 c m h'
      exact ⟨p, hp, e, hlink p hp c y hl hy⟩
  refine ⟨sound, ?_⟩
  intro p hp c hcp
  have hmem : c ∈ (listSolidSolutions sss).1 := (g3 c).mpr ⟨p, hp, hcp⟩
  obtain ⟨m, hm⟩ := (fst_mem_pairs sss c).mp hmem
  have hz : (c, m) ∈ s.ssComps.zip s.ssNames := (key c m).mpr (.inr (by rw [hc, hn]; exact hm))
  obtain ⟨q, hq, e, hcq⟩ := sound c m hz
  have := hd q hq p hp c hcq hcp
  subst this
  rw [e]
  exact hz

/-- **C29 violated.** When solid solutions A = {a, b} and B = {b, c} share a component, c is
listed under A, which does not contain it, already in the first call. -/
theorem ss_shared_violated :
    ("c".toList, "A".toList) ∈
      (listSolidSolutions [("A".toList, ["a".toList, "b".toList]),
        ("B".toList, ["b".toList, "c".toList])]).1.zip
      (listSolidSolutions [("A".toList, ["a".toList, "b".toList]),
        ("B".toList, ["b".toList, "c".toList])]).2 := by
  decide +kernel

end Verif.Components
