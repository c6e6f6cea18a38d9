import Verif.Catalog.Model
import Verif.NameDouble.Spec
import Verif.Getters.Props
import Mathlib.Data.List.Nodup
import Mathlib.Data.List.Induction

/-! # The lists of species and of saturation indices -/

namespace Verif.Catalog

open Verif.OMap Verif.NameDouble

/-! ## Specification -/

/-- The element list of a species as the tidied database has it: every element once, and none called `Charge`. -/
def Plain (x : Raw) : Prop :=
  (x.elements.map Prod.fst).Nodup ∧ "Charge".toList ∉ x.elements.map Prod.fst

/-- The stoichiometry of a species: its elements with their coefficients, and its charge. -/
def Stoichiometry (x : Raw) (nd : ND) : Prop :=
  (∀ el c, (el, c) ∈ x.elements → OMap.find nd el = some c) ∧ OMap.find nd "Charge".toList = some x.z ∧
  ∀ el, el ≠ "Charge".toList → el ∉ x.elements.map Prod.fst → OMap.find nd el = none

/-- Entry `r` of all lists is that of species `x`. -/
structure Entry (l : Lists) (r : Nat) (x : Raw) : Prop where
  name : l.names[r]? = some x.name
  z : l.zs[r]? = some x.z
  d : l.ds[r]? = some x.dw
  stoich : Plain x → ∃ nd, l.stoich[r]? = some nd ∧ Stoichiometry x nd

/-- The lists and the table describe exactly the species of `s` in the model, in the order of `s`. -/
structure Right (s : List Raw) (l : Lists) : Prop where
  lengths : l.zs.length = l.names.length ∧ l.ds.length = l.names.length ∧ l.stoich.length = l.names.length
  table : Getters.GoodTable l.names.length l.tab
  all : ∀ (k : Nat) x, s[k]? = some x → x.inn = true → ∃ r, ((k : Int), r) ∈ l.tab
  entry : ∀ k r, (k, r) ∈ l.tab → ∃ (i : Nat) (x : Raw), k = i ∧ s[i]? = some x ∧ x.inn = true ∧ Entry l r x
  full : ∀ r, r < l.names.length → ∃ k, (k, r) ∈ l.tab
  order : ∀ k r k' r', (k, r) ∈ l.tab → (k', r') ∈ l.tab → k < k' → r < r'

/-! ## Lemmas -/

theorem listsOf_snoc (l : List (Raw × Nat)) (x : Raw × Nat) :
    listsOf (l ++ [x]) = step (listsOf l) (x, l.length) := by
  unfold listsOf
  rw [List.zipIdx_append, List.foldl_append]
  simp

theorem listsOf_columns (l : List (Raw × Nat)) :
    (listsOf l).names = l.map (fun p => p.1.name) ∧ (listsOf l).zs = l.map (fun p => p.1.z) ∧
    (listsOf l).ds = l.map (fun p => p.1.dw) ∧
    (listsOf l).stoich = l.map (fun p => add (ofElements p.1.elements) "Charge".toList p.1.z) := by
  induction l using List.reverseRecOn with
  | nil => exact ⟨rfl, rfl, rfl, rfl⟩
  | append_singleton l x ih =>
    obtain ⟨h1, h2, h3, h4⟩ := ih
    rw [listsOf_snoc]
    unfold step
    refine ⟨?_, ?_, ?_, ?_⟩ <;> dsimp only
    · rw [h1, List.map_append]; rfl
    · rw [h2, List.map_append]; rfl
    · rw [h3, List.map_append]; rfl
    · rw [h4, List.map_append]; rfl

theorem tab_sorted (l : List (Raw × Nat)) : Sorted (listsOf l).tab := by
  induction l using List.reverseRecOn with
  | nil => exact List.Pairwise.nil
  | append_singleton l x ih => rw [listsOf_snoc]; exact sorted_insert ih _ _

theorem tab_find (l : List (Raw × Nat)) (hn : (l.map Prod.snd).Nodup) (k : Int) (r : Nat) :
    OMap.find (listsOf l).tab k = some r ↔ ∃ (x : Raw) (i : Nat), k = i ∧ l[r]? = some (x, i) := by
  induction l using List.reverseRecOn with
  | nil => simp [listsOf, OMap.find]
  | append_singleton l y ih =>
    rw [List.map_append, List.nodup_append] at hn
    rw [listsOf_snoc]
    show OMap.find (insert (listsOf l).tab (y.2 : Int) l.length) k = some r ↔ _
    rw [find_insert]
    by_cases hk : k = (y.2 : Int)
    · rw [if_pos hk]
      constructor
      · intro h
        cases h
        exact ⟨y.1, y.2, hk, by simp⟩
      · rintro ⟨x, i, hi, hx⟩
        by_cases hr : r < l.length
        · rw [List.getElem?_append_left hr] at hx
          exfalso
          refine hn.2.2 i (List.mem_map.mpr ⟨_, List.mem_of_getElem? hx, rfl⟩) y.2 (by simp) ?_
          omega
        · have := (List.getElem?_eq_some_iff.mp hx).1
          simp only [List.length_append, List.length_singleton] at this
          rw [show r = l.length by omega]
    · rw [if_neg hk, ih hn.1]
      constructor
      · rintro ⟨x, i, hi, hx⟩
        exact ⟨x, i, hi, by rw [List.getElem?_append_left (List.getElem?_eq_some_iff.mp hx).1]; exact hx⟩
      · rintro ⟨x, i, hi, hx⟩
        refine ⟨x, i, hi, ?_⟩
        by_cases hr : r < l.length
        · rw [List.getElem?_append_left hr] at hx; exact hx
        · have := (List.getElem?_eq_some_iff.mp hx).1
          simp only [List.length_append, List.length_singleton] at this
          rw [show r = l.length by omega, List.getElem?_append_right (le_refl _), Nat.sub_self] at hx
          simp only [List.getElem?_cons_zero, Option.some.injEq] at hx
          rw [hx] at hk
          exact absurd hi hk

theorem sx_sorted (s : List Raw) : ((sx s).map Prod.snd).Pairwise (· < ·) := by
  unfold sx
  have h : (s.zipIdx.map Prod.snd).Pairwise (· < ·) := by
    rw [List.zipIdx_map_snd]
    exact List.pairwise_lt_range'
  exact h.sublist (List.filter_sublist.map _)

theorem mem_sx (s : List Raw) (x : Raw) (k : Nat) : (x, k) ∈ sx s ↔ s[k]? = some x ∧ x.inn = true := by
  unfold sx
  rw [List.mem_filter, List.mem_zipIdx_iff_getElem?]

theorem ofElements_find (l : List (Name × ℚ)) : ∀ (_ : (l.map Prod.fst).Nodup) (el : Name),
    (∀ c, (el, c) ∈ l → OMap.find (ofElements l) el = some c) ∧
    (el ∉ l.map Prod.fst → OMap.find (ofElements l) el = none) := by
  induction l using List.reverseRecOn with
  | nil => intro _ el; exact ⟨by simp, fun _ => rfl⟩
  | append_singleton l p ih =>
    intro hn el
    rw [List.map_append, List.nodup_append] at hn
    have e : ofElements (l ++ [p]) = insert (ofElements l) p.1 p.2 := by simp [ofElements]
    rw [e, find_insert]
    constructor
    · intro c hc
      by_cases h : el = p.1
      · rw [if_pos h]
        rcases List.mem_append.mp hc with h' | h'
        · exact absurd h (hn.2.2 el (List.mem_map.mpr ⟨_, h', rfl⟩) p.1 (by simp))
        · rw [List.mem_singleton] at h'
          rw [← h']
      · rw [if_neg h]
        rcases List.mem_append.mp hc with h' | h'
        · exact (ih hn.1 el).1 c h'
        · rw [List.mem_singleton] at h'
          exact absurd (by rw [← h']) h
    · intro h
      rw [List.map_append, List.mem_append, not_or] at h
      rw [if_neg (by intro e; apply h.2; simp [e])]
      exact (ih hn.1 el).2 h.1

theorem stoichiometry_of (x : Raw) (hp : Plain x) :
    Stoichiometry x (add (ofElements x.elements) "Charge".toList x.z) := by
  unfold Stoichiometry Plain at *
  generalize "Charge".toList = C at *
  have hc : OMap.find (ofElements x.elements) C = none := (ofElements_find x.elements hp.1 C).2 hp.2
  have e : add (ofElements x.elements) C x.z = insert (ofElements x.elements) C x.z := by
    unfold add
    rw [hc]
  rw [e]
  refine ⟨?_, ?_, ?_⟩
  · intro el c h
    rw [find_insert, if_neg (by rintro rfl; exact hp.2 (List.mem_map.mpr ⟨_, h, rfl⟩))]
    exact (ofElements_find x.elements hp.1 el).1 c h
  · rw [find_insert, if_pos rfl]
  · intro el h h'
    rw [find_insert, if_neg h]
    exact (ofElements_find x.elements hp.1 el).2 h'

/-! ## Theorems -/

theorem listsOf_right (s : List Raw) : Right s (listsOf (sx s)) := by
  have hnd : ((sx s).map Prod.snd).Nodup := (sx_sorted s).imp (fun h => ne_of_lt h)
  obtain ⟨c1, c2, c3, c4⟩ := listsOf_columns (sx s)
  have mem : ∀ k r, (k, r) ∈ (listsOf (sx s)).tab ↔ ∃ (x : Raw) (i : Nat), k = i ∧ (sx s)[r]? = some (x, i) := by
    intro k r
    rw [← tab_find (sx s) hnd k r]
    exact ⟨find_of_mem (tab_sorted _), mem_of_find⟩
  refine ⟨?_, ⟨?_, ?_, ?_⟩, ?_, ?_, ?_, ?_⟩
  · rw [c1, c2, c3, c4]; simp
  · exact List.pairwise_map.mpr ((tab_sorted (sx s)).imp (fun h => ne_of_lt h))
  · refine List.Nodup.map_on ?_ ((tab_sorted (sx s)).imp (fun h e => by subst e; exact absurd h (lt_irrefl _)))
    intro p hp q hq e
    obtain ⟨x, i, h1, h2⟩ := (mem p.1 p.2).mp hp
    obtain ⟨y, j, h3, h4⟩ := (mem q.1 q.2).mp hq
    rw [e, h4] at h2
    simp only [Option.some.injEq, Prod.mk.injEq] at h2
    exact Prod.ext (by rw [h1, h3, h2.2]) e
  · intro p hp
    obtain ⟨x, i, _, h2⟩ := (mem p.1 p.2).mp hp
    rw [c1, List.length_map]
    exact (List.getElem?_eq_some_iff.mp h2).1
  · intro k x hx hi
    obtain ⟨r, hr⟩ := List.mem_iff_getElem?.mp ((mem_sx s x k).mpr ⟨hx, hi⟩)
    exact ⟨r, (mem _ _).mpr ⟨x, k, rfl, hr⟩⟩
  · intro k r h
    obtain ⟨x, i, h1, h2⟩ := (mem k r).mp h
    obtain ⟨h3, h4⟩ := (mem_sx s x i).mp (List.mem_of_getElem? h2)
    refine ⟨i, x, h1, h3, h4, ⟨?_, ?_, ?_, fun hp => ⟨_, ?_, stoichiometry_of x hp⟩⟩⟩
    · rw [c1, List.getElem?_map, h2]; rfl
    · rw [c2, List.getElem?_map, h2]; rfl
    · rw [c3, List.getElem?_map, h2]; rfl
    · rw [c4, List.getElem?_map, h2]; rfl
  · intro r hr
    rw [c1, List.length_map] at hr
    exact ⟨_, (mem _ r).mpr ⟨((sx s)[r]).1, ((sx s)[r]).2, rfl, List.getElem?_eq_getElem hr⟩⟩
  · intro k r k' r' h h' hlt
    obtain ⟨x, i, h1, h2⟩ := (mem k r).mp h
    obtain ⟨y, j, h3, h4⟩ := (mem k' r').mp h'
    by_contra hge
    have hs := sx_sorted s
    have g1 : ((sx s).map Prod.snd)[r]? = some i := by rw [List.getElem?_map, h2]; rfl
    have g2 : ((sx s).map Prod.snd)[r']? = some j := by rw [List.getElem?_map, h4]; rfl
    obtain ⟨l1, e1⟩ := List.getElem?_eq_some_iff.mp g1
    obtain ⟨l2, e2⟩ := List.getElem?_eq_some_iff.mp g2
    rcases Nat.lt_or_ge r' r with hh | hh
    · have := List.pairwise_iff_getElem.mp hs r' r l2 l1 hh
      rw [e1, e2] at this
      omega
    · have : r = r' := by omega
      subst this
      rw [e1] at e2
      omega

theorem after_lists (rs : List Run) (s : List Raw) (ph : List Phase) (deleted : Bool) (later : List Run)
    (hl : ∀ r ∈ later, r = .failed) :
    (after (rs ++ .done s ph deleted :: later)).lists = listsOf (sx s) := by
  have keep : ∀ (l : List Run) (st : State), (∀ r ∈ l, r = .failed) →
      l.foldl (fun st r => (find st r).1) st = st := by
    intro l
    induction l with
    | nil => intro st _; rfl
    | cons r l ih =>
      intro st h
      rw [List.foldl_cons, h r List.mem_cons_self]
      exact ih st (fun q hq => h q (List.mem_cons_of_mem _ hq))
  unfold after
  rw [List.foldl_append, List.foldl_cons, keep later _ hl]
  rfl

/-- **C209.** After every history of calls, whatever they returned: if the last call that got as far as the species found those of
`s`, the names, charges, diffusion coefficients and stoichiometries are parallel lists of exactly the species in the model, in the order of the
database, and the table used by the getters of species gives each its position. Earlier calls leave nothing behind. -/
theorem species_lists (rs : List Run) (s : List Raw) (ph : List Phase) (deleted : Bool) (later : List Run)
    (hl : ∀ r ∈ later, r = .failed) :
    Right s (after (rs ++ .done s ph deleted :: later)).lists := by
  rw [after_lists rs s ph deleted later hl]
  exact listsOf_right s

/-- **C209.** The getter of species concentrations with these lists: the value for position `r` and grid cell `i` is the amount of the species
with the name at `r`, for solutions whose species are in the model. -/
theorem species_named {g : List Int} {gs : Getters.GState} (hr : Getters.Ready g gs) (s : List Raw) (l : Lists)
    (hl : Right s l)
    (hs : ∀ n j x, Ranges.Owns gs.map.ranges n j → gs.sol n j = some x →
      (x.species.map Prod.fst).Nodup ∧ ∀ p ∈ x.species, ∃ (k : Nat) (y : Raw), p.1 = k ∧ s[k]? = some y ∧ y.inn = true)
    (v : List ℚ) :
    ∃ c, Getters.getSpecies gs true l.names.length l.tab v = .ok c ∧
      ∀ (i : Nat) (j : Int) n x (k : Nat) (y : Raw), g[i]? = some j → Ranges.Owns gs.map.ranges n j →
        gs.sol n j = some x → s[k]? = some y → y.inn = true →
        ∃ r a, l.names[r]? = some y.name ∧ l.zs[r]? = some y.z ∧ Getters.Amount x.species k a ∧
          c[gs.map.nxyz * r + i]? = some a := by
  obtain ⟨c, h1, _, h3, _⟩ := Getters.getSpecies_partial hr hl.table (fun n j x ho hx => by
    obtain ⟨a, b⟩ := hs n j x ho hx
    refine ⟨a, fun p hp => ?_⟩
    obtain ⟨k, y, e, hy, hi⟩ := b p hp
    rw [e]
    exact hl.all k y hy hi) v
  refine ⟨c, h1, ?_⟩
  intro i j n x k y hij ho hx hy hi
  obtain ⟨r, hr'⟩ := hl.all k y hy hi
  obtain ⟨i', y', e, hy', _, en⟩ := hl.entry _ _ hr'
  obtain rfl : k = i' := by omega
  rw [hy] at hy'
  cases hy'
  obtain ⟨a, ha, hc⟩ := h3 i j n x k r hij ho hx hr'
  exact ⟨r, a, en.name, en.z, ha, hc⟩

/-- The phases found by a run. -/
def found : Run → List Name
  | .failed => []
  | .done _ ph _ => (ph.filter (fun p => p.inn)).map Phase.name

/-- **C210, what the code does.** The names of all calls are put one after the other. -/
theorem si_history (rs : List Run) : (after rs).si = rs.flatMap found := by
  have gen : ∀ (rs : List Run) (st : State),
      (rs.foldl (fun st r => (find st r).1) st).si = st.si ++ rs.flatMap found := by
    intro rs
    induction rs with
    | nil => intro st; simp
    | cons r rs ih =>
      intro st
      rw [List.foldl_cons, ih, List.flatMap_cons, ← List.append_assoc]
      cases r with
      | failed => simp [find, found]
      | done s ph d => rfl
  rw [after, gen]
  simp [new]

/-- **C210, part.** With one call that finds phases, whose names differ: each phase in the model is listed once, and no other.

Missing: further calls, `si_repeated`. -/
theorem si_partial (rs later : List Run) (s : List Raw) (ph : List Phase) (deleted : Bool)
    (hr : ∀ r ∈ rs ++ later, r = .failed) (hn : (ph.map Phase.name).Nodup) :
    (after (rs ++ .done s ph deleted :: later)).si.Nodup ∧
    ∀ n, n ∈ (after (rs ++ .done s ph deleted :: later)).si ↔ ∃ p ∈ ph, p.inn = true ∧ p.name = n := by
  have none : ∀ l : List Run, (∀ r ∈ l, r = .failed) → l.flatMap found = [] := by
    intro l h
    rw [List.flatMap_eq_nil_iff]
    intro r hr
    rw [h r hr]
    rfl
  rw [si_history, List.flatMap_append, List.flatMap_cons,
    none rs (fun r h => hr r (List.mem_append_left _ h)), none later (fun r h => hr r (List.mem_append_right _ h)),
    List.nil_append, List.append_nil]
  refine ⟨hn.sublist (List.filter_sublist.map _), fun n => ?_⟩
  simp only [found, List.mem_map, List.mem_filter]
  constructor
  · rintro ⟨p, ⟨h1, h2⟩, h3⟩; exact ⟨p, h1, h2, h3⟩
  · rintro ⟨p, h1, h2, h3⟩; exact ⟨p, ⟨h1, h2⟩, h3⟩

/-- **C210, violated.** After two calls that find the same phase its name is listed twice, whatever the other calls: the names are not
unique, as the documentation says they are. -/
theorem si_repeated (a b c : List Run) (s s' : List Raw) (ph ph' : List Phase) (d d' : Bool) (p q : Phase)
    (hp : p ∈ ph) (hq : q ∈ ph') (hpi : p.inn = true) (hqi : q.inn = true) (hpq : p.name = q.name) :
    ¬ (after (a ++ .done s ph d :: b ++ .done s' ph' d' :: c)).si.Nodup := by
  rw [si_history, List.flatMap_append, List.flatMap_append, List.flatMap_cons, List.flatMap_cons]
  intro h
  rw [List.nodup_append] at h
  refine h.2.2 p.name ?_ p.name ?_ rfl
  · exact List.mem_append_right _ (List.mem_append_left _
      (List.mem_map.mpr ⟨p, List.mem_filter.mpr ⟨hp, hpi⟩, rfl⟩))
  · exact List.mem_append_left _ (List.mem_map.mpr ⟨q, List.mem_filter.mpr ⟨hq, hqi⟩, hpq.symm⟩)

/-! ## Cases -/

namespace Demo

def water : Raw := ⟨"H2O".toList, 0, 0, [("H".toList, 2), ("O".toList, 1)], true⟩
def absent : Raw := ⟨"Fe+2".toList, 2, 0, [("Fe".toList, 1)], false⟩
def sodium : Raw := ⟨"Na+".toList, 1, 1 / 750000000, [("Na".toList, 1)], true⟩
def halite : Phase := ⟨"Halite".toList, true⟩

/-- Three species, of which the second is not in the model: the third has position 1. -/
theorem lists_case : (after [.failed, .done [water, absent, sodium] [halite] true]).lists.names =
      ["H2O".toList, "Na+".toList] ∧
    (after [.failed, .done [water, absent, sodium] [halite] true]).lists.tab = [(0, 0), (2, 1)] ∧
    (after [.failed, .done [water, absent, sodium] [halite] true]).lists.zs = [0, 1] ∧
    Plain water ∧ Plain sodium := by
  refine ⟨by decide +kernel, by decide +kernel, by decide +kernel, ?_, ?_⟩ <;>
    exact ⟨by decide +kernel, by decide +kernel⟩

/-- A module of two grid cells, the second unmapped, whose solution has 5 mol of species 0 and 3 mol of species 2. -/
def sol : Nat → Int → Option Getters.Soln := fun n j =>
  if n = 0 ∧ j = 0 then some ⟨1, 3 / 8, 1, 25, 1, [(0, 5), (2, 3)]⟩ else none

theorem ready : Getters.Ready [0, -1] (Getters.demo sol) where
  con := Getters.demo_consistent _
  glen := rfl
  sols := by
    rintro n j ⟨r, hr, h1, h2⟩
    match n with
    | 0 =>
      simp [Getters.demo] at hr; subst hr
      have : j = 0 := by simp at h1 h2; omega
      subst this
      exact ⟨_, rfl⟩
    | n + 1 => simp [Getters.demo] at hr

/-- The hypotheses of `species_named` are met: sodium, number 2 in the database, is in column 1. -/
theorem named_applies : ∃ c, Getters.getSpecies (Getters.demo sol) true (listsOf (sx [water, absent, sodium])).names.length
    (listsOf (sx [water, absent, sodium])).tab [] = .ok c := by
  obtain ⟨c, h, _⟩ := species_named ready [water, absent, sodium] _ (listsOf_right _) (by
    intro n j x _ hx
    unfold Getters.demo sol at hx
    dsimp only at hx
    split at hx
    · cases hx
      refine ⟨by decide, fun p hp => ?_⟩
      rcases List.mem_cons.mp hp with rfl | hp
      · exact ⟨0, water, rfl, rfl, rfl⟩
      · rw [List.mem_singleton] at hp
        subst hp
        exact ⟨2, sodium, rfl, rfl, rfl⟩
    · cases hx) []
  exact ⟨c, h⟩

example : Getters.getSpecies (Getters.demo sol) true 2 [(0, 0), (2, 1)] [] = .ok [5, 0, 3, 0] := by
  decide +kernel

/-- `FindComponents` called twice on the same definitions: `GetSICount` is 2 for one phase. -/
theorem twice : (after [.done [water] [halite] true, .done [water] [halite] true]).si =
    ["Halite".toList, "Halite".toList] := by decide +kernel

end Demo

end Verif.Catalog
