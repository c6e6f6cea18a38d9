import Verif.CheckCells.Model
import Verif.Grid.Lemmas
import Verif.Mapping.Props
import Verif.Conc.Lemmas

/-! # C113: the message about missing solutions -/

namespace Verif.CheckCells

open Verif.Mapping Verif.Grid Verif.Ranges Verif.Transfer

/-! ## Specification -/

/-- Reaction cell `c` has no solution in the worker that owns it. -/
def Lacks (rs : List (Int × Int)) (sol : Nat → Int → Bool) (c : Int) : Prop :=
  ∃ n, Owns rs n c ∧ sol n c = false

/-- The message names cell `c`. -/
def Names (l : List (Nat × List Nat)) (c : Int) : Prop := ∃ p ∈ l, (p.1 : Int) = c

/-! ## Lemmas -/

theorem rangeCells_sorted (r : Int × Int) : (rangeCells r).Pairwise (· < ·) := by
  unfold rangeCells
  rw [List.pairwise_map]
  exact List.Pairwise.imp (fun h => by omega) (List.pairwise_lt_range)

theorem owned_sorted (rs : List (Int × Int)) : ∀ (a b : Int) (k : Nat), Contig a b rs →
    ((rs.zipIdx k).flatMap (fun p => (rangeCells p.1).map (fun c => (p.2, c)))).Pairwise
      (fun p q => p.2 < q.2) ∧
    ∀ q ∈ (rs.zipIdx k).flatMap (fun p => (rangeCells p.1).map (fun c => (p.2, c))),
      a ≤ q.2 ∧ q.2 < b := by
  induction rs with
  | nil => intro a b k _; simp
  | cons r rs ih =>
    intro a b k h
    obtain ⟨h1, h2, h3⟩ := h
    obtain ⟨i1, i2⟩ := ih _ _ (k + 1) h3
    have hle := h3.le
    have hr : ∀ c ∈ rangeCells r, r.1 ≤ c ∧ c ≤ r.2 := fun c hc => by
      unfold rangeCells at hc
      obtain ⟨n, hn, rfl⟩ := List.mem_map.mp hc
      have := List.mem_range.mp hn
      omega
    rw [List.zipIdx_cons, List.flatMap_cons]
    refine ⟨List.pairwise_append.mpr ⟨?_, i1, ?_⟩, ?_⟩
    · rw [List.pairwise_map]; exact rangeCells_sorted r
    · intro p hp q hq
      obtain ⟨c, hc, rfl⟩ := List.mem_map.mp hp
      have := hr c hc
      have := i2 q hq
      simp only
      omega
    · intro q hq
      rcases List.mem_append.mp hq with hq | hq
      · obtain ⟨c, hc, rfl⟩ := List.mem_map.mp hq
        have := hr c hc
        simp only
        omega
      · have := i2 q hq
        omega

theorem mem_missing (rs : List (Int × Int)) (sol : Nat → Int → Bool) (c : Int) :
    c ∈ missing rs sol ↔ Lacks rs sol c := by
  unfold missing Lacks
  simp only [List.mem_map, List.mem_filter, Prod.exists, mem_ownedCells]
  constructor
  · rintro ⟨n, c', ⟨h1, h2⟩, rfl⟩; exact ⟨n, h1, by simpa using h2⟩
  · rintro ⟨n, h1, h2⟩; exact ⟨n, c, ⟨h1, by simp [h2]⟩, rfl⟩

theorem missing_sorted {rs : List (Int × Int)} {a b : Int} (h : Contig a b rs)
    (sol : Nat → Int → Bool) :
    (missing rs sol).Pairwise (· < ·) ∧ ∀ c ∈ missing rs sol, a ≤ c ∧ c < b := by
  obtain ⟨h1, h2⟩ := owned_sorted rs a b 0 h
  unfold missing
  refine ⟨?_, ?_⟩
  · rw [List.pairwise_map]
    exact List.Pairwise.filter _ h1
  · intro c hc
    obtain ⟨p, hp, rfl⟩ := List.mem_map.mp hc
    exact h2 p (List.mem_filter.mp hp).1

theorem length_le {l : List Int} : ∀ {a b : Int}, a ≤ b → l.Pairwise (· < ·) →
    (∀ c ∈ l, a ≤ c ∧ c < b) → (l.length : Int) ≤ b - a := by
  induction l with
  | nil => intro a b h _ _; simp; omega
  | cons x l ih =>
    intro a b h hs hb
    obtain ⟨h1, h2⟩ := List.pairwise_cons.mp hs
    have hx := hb x List.mem_cons_self
    have := ih (a := x + 1) (b := b) (by omega) h2 (fun c hc => by
      have := h1 c hc
      have := hb c (List.mem_cons_of_mem _ hc)
      omega)
    rw [List.length_cons]
    push_cast
    omega

/-- A strictly increasing list of numbers from `a` on: element `i` is at least `a + i`, and the
list is an initial segment if it is closed downwards. -/
theorem segment {l : List Int} : ∀ {a : Int}, l.Pairwise (· < ·) → (∀ c ∈ l, a ≤ c) →
    (∀ c ∈ l, ∀ d, a ≤ d → d < c → d ∈ l) → ∀ c, c ∈ l ↔ a ≤ c ∧ c < a + l.length := by
  induction l with
  | nil => intro a _ _ _ c; simp
  | cons x l ih =>
    intro a hs hb hd c
    obtain ⟨h1, h2⟩ := List.pairwise_cons.mp hs
    have hxa : x = a := by
      by_contra hne
      have hx := hb x List.mem_cons_self
      have := hd x List.mem_cons_self a (le_refl _) (by omega)
      rcases List.mem_cons.mp this with e | e
      · exact hne e.symm
      · have := h1 a e; omega
    subst hxa
    have key := ih (a := x + 1) h2 (fun c hc => by have := h1 c hc; omega) (by
      intro c hc d hxd hdc
      rcases List.mem_cons.mp (hd c (List.mem_cons_of_mem _ hc) d (by omega) hdc) with e | e
      · omega
      · exact e)
    rw [List.mem_cons, key c, List.length_cons]
    push_cast
    omega

theorem message_ok (back : List (List Nat)) (k : Nat) (h : k ≤ back.length) :
    ∃ l, message back k = .ok l ∧ l.length = k ∧
      ∀ (i : Nat) (cells : List Nat), i < k → back[i]? = some cells → l[i]? = some (i, cells) := by
  refine ⟨(List.range k).map (fun i => (i, (back[i]?).getD [])), ?_, by simp, ?_⟩
  · unfold message
    refine Conc.mapM_ok _ _ _ ?_
    intro i hi
    have hi : i < back.length := by have := List.mem_range.mp hi; omega
    rw [idx_nat (List.getElem?_eq_getElem hi), Out.ok_bind, List.getElem?_eq_getElem hi]
    rfl
  · intro i cells hi hc
    rw [List.getElem?_map, List.getElem?_range hi, Option.map_some, hc]
    rfl

/-! ## Properties -/

/-- C113, what holds. In every module with a consistent mapping: the check succeeds exactly when
every reaction cell has a solution; otherwise it stops with one line for each cell without
solution, and each line pairs a reaction cell with its grid cells. The cells named are the
ones without solution exactly when these are the first cells of the module. The full claim is
that they always are (`message_violated`). -/
theorem checkCells_partial (g : List Int) (s : MapState) (hcon : Consistent g s)
    (sol : Nat → Int → Bool) :
    (checkCells s sol = .ok .fine ↔ ∀ c, ¬ Lacks s.ranges sol c) ∧
    ((∃ c, Lacks s.ranges sol c) → ∃ l, checkCells s sol = .ok (.stopped l) ∧
      (∀ cs : List Int, cs.Nodup → (∀ c, c ∈ cs ↔ Lacks s.ranges sol c) → l.length = cs.length) ∧
      (∀ p ∈ l, s.backward[p.1]? = some p.2) ∧
      ((∀ c, Names l c ↔ Lacks s.ranges sol c) ↔
        ∀ c d, Lacks s.ranges sol c → 0 ≤ d → d < c → Lacks s.ranges sol d)) := by
  obtain ⟨hs, hb⟩ := missing_sorted hcon.ranges.2 sol
  have hlen : (missing s.ranges sol).length ≤ s.backward.length := by
    have := length_le (a := 0) (b := s.count) (by omega) hs hb
    rw [hcon.back_len]
    omega
  obtain ⟨l, hl1, hl2, hl3⟩ := message_ok s.backward _ hlen
  have lines : ∀ p ∈ l, s.backward[p.1]? = some p.2 := by
    intro p hp
    obtain ⟨i, hi, e⟩ := List.mem_iff_getElem.mp hp
    have hi' : i < s.backward.length := by omega
    have := hl3 i _ (by omega) (List.getElem?_eq_getElem hi')
    rw [List.getElem?_eq_getElem hi] at this
    rw [← e, Option.some.inj this]
    exact List.getElem?_eq_getElem hi'
  have named : ∀ c, Names l c ↔ 0 ≤ c ∧ c < ((missing s.ranges sol).length : Int) := by
    intro c
    constructor
    · rintro ⟨p, hp, rfl⟩
      obtain ⟨i, hi, e⟩ := List.mem_iff_getElem.mp hp
      have hi' : i < s.backward.length := by omega
      have := hl3 i _ (by omega) (List.getElem?_eq_getElem hi')
      rw [List.getElem?_eq_getElem hi] at this
      rw [← e, Option.some.inj this]
      simp only
      omega
    · rintro ⟨h0, h1⟩
      have hi : c.toNat < s.backward.length := by omega
      have := hl3 c.toNat _ (by omega) (List.getElem?_eq_getElem hi)
      exact ⟨_, List.mem_of_getElem? this, by simp only; omega⟩
  unfold checkCells
  by_cases hm : 0 < (missing s.ranges sol).length
  · have hex : ∃ c, Lacks s.ranges sol c := by
      obtain ⟨c, hc⟩ := List.exists_mem_of_length_pos hm
      exact ⟨c, (mem_missing _ _ _).mp hc⟩
    simp only [if_pos hm, hl1, Out.ok_bind]
    refine ⟨⟨fun h => by simp at h, fun h => absurd hex.choose_spec (h _)⟩, fun _ => ⟨l, rfl, ?_,
      lines, ?_⟩⟩
    · intro cs hn hcs
      rw [hl2]
      refine (List.perm_ext_iff_of_nodup (hs.imp (fun h => ne_of_lt h)) hn).mpr ?_ |>.length_eq
      intro c
      rw [mem_missing, hcs]
    · constructor
      · intro h c d hc h0 hd
        rw [← h, named]
        rw [← h, named] at hc
        omega
      · intro h c
        rw [named, ← mem_missing]
        have := segment (a := 0) hs (fun c hc => (hb c hc).1) (fun c hc d h0 hd => by
          rw [mem_missing] at hc ⊢
          exact h c d hc h0 hd) c
        rw [this]
        omega
  · have hnil : missing s.ranges sol = [] := List.length_eq_zero_iff.mp (by omega)
    have hno : ∀ c, ¬ Lacks s.ranges sol c := by
      intro c hc
      rw [← mem_missing, hnil] at hc
      cases hc
    simp only [if_neg hm]
    exact ⟨⟨fun _ => hno, fun _ => trivial⟩, fun ⟨c, hc⟩ => absurd hc (hno c)⟩

/-- C113, the code. In every module whose cell 0 has a solution while another cell has none, the
message says that cell 0 has none. -/
theorem message_violated (g : List Int) (s : MapState) (hcon : Consistent g s)
    (sol : Nat → Int → Bool) (hex : ∃ c, Lacks s.ranges sol c) (h0 : ¬ Lacks s.ranges sol 0) :
    ∃ l, checkCells s sol = .ok (.stopped l) ∧ ¬ ∀ c, Names l c → Lacks s.ranges sol c := by
  obtain ⟨l, h1, h2, _, _⟩ := (checkCells_partial g s hcon sol).2 hex
  refine ⟨l, h1, fun hall => h0 (hall 0 ?_)⟩
  obtain ⟨hs, hb⟩ := missing_sorted hcon.ranges.2 sol
  have hn := h2 (missing s.ranges sol) (hs.imp (fun h => ne_of_lt h))
    (fun c => mem_missing _ _ c)
  unfold checkCells at h1
  have hm : 0 < (missing s.ranges sol).length :=
    List.length_pos_of_mem ((mem_missing _ _ _).mpr hex.choose_spec)
  have hlen : (missing s.ranges sol).length ≤ s.backward.length := by
    have := length_le (a := 0) (b := s.count) (by omega) hs hb
    rw [hcon.back_len]
    omega
  obtain ⟨l', e1, e2, e3⟩ := message_ok s.backward _ hlen
  simp only [if_pos hm, e1, Out.ok_bind, Out.ok.injEq, Check.stopped.injEq] at h1
  subst h1
  exact ⟨_, List.mem_of_getElem? (e3 0 _ hm (List.getElem?_eq_getElem (by omega))), rfl⟩

/-- Four grid cells on two reaction cells and two workers; worker 1 lacks the solution of cell 1.
The module is the result of a successful mapping, and the message says cell 0. -/
example : ∃ s', createMapping ⟨4, 2, 0, [], [], []⟩ [0, 1, 1, -1] = .ok (.ok, s') ∧
    s'.ranges = [(0, 0), (1, 1)] ∧
    checkCells s' (fun n _ => n = 0) = .ok (.stopped [(0, [0])]) ∧
    missing s'.ranges (fun n _ => n = 0) = [1] := by
  refine ⟨_, rfl, ?_, ?_, ?_⟩ <;> decide

end Verif.CheckCells
