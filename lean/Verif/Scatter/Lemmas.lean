import Verif.Scatter.Model
import Verif.Getters.Lemmas
import Verif.Conc.Set

namespace Verif.Scatter

open Verif.Mapping Verif.Grid Verif.Getters Verif.Ranges Verif.Conc

/-- Each process has a vector of the size of its range. -/
def Sized {α : Type} (rs : List (Int × Int)) (pieces : List (List α)) : Prop :=
  List.Forall₂ (fun r p => ((p : List α).length : Int) = size r) rs pieces

theorem slice_all {α : Type} {a b : Int} {rs : List (Int × Int)} (h : Contig a b rs)
    (ha : 0 ≤ a) (d : List α) (hd : (d.length : Int) = b) :
    ∃ ps, rs.mapM (slice d) = .ok ps ∧ Sized rs ps ∧ ps.flatten = d.drop a.toNat := by
  induction rs generalizing a with
  | nil =>
    simp only [Contig] at h
    refine ⟨[], rfl, List.Forall₂.nil, ?_⟩
    rw [List.drop_eq_nil_of_le (by omega)]
    rfl
  | cons r rs ih =>
    obtain ⟨h1, h2, h3⟩ := h
    obtain ⟨ps, e1, e2, e3⟩ := ih h3 (by omega)
    have hle := h3.le
    have hs : slice d r = .ok ((d.drop r.1.toNat).take (r.2 - r.1 + 1).toNat) := by
      rw [slice, if_pos ⟨by omega, h2, by omega⟩]
    refine ⟨(d.drop r.1.toNat).take (r.2 - r.1 + 1).toNat :: ps, ?_,
      List.Forall₂.cons ?_ e2, ?_⟩
    · rw [List.mapM_cons, hs, Out.ok_bind, e1]
      rfl
    · simp only [List.length_take, List.length_drop, size]
      omega
    · rw [List.flatten_cons, e3]
      have : (r.2 + 1).toNat = r.1.toNat + (r.2 - r.1 + 1).toNat := by omega
      rw [this, ← List.drop_drop, List.take_append_drop, h1]

theorem slice_pieces {α : Type} {a b : Int} {rs : List (Int × Int)} (h : Contig a b rs)
    (ha : 0 ≤ a) (ps : List (List α)) (hp : Sized rs ps) (pre : List α)
    (hpre : (pre.length : Int) = a) : rs.mapM (slice (pre ++ ps.flatten)) = .ok ps := by
  induction rs generalizing a ps pre with
  | nil => cases hp; rfl
  | cons r rs ih =>
    cases hp with
    | @cons _ p _ ps hp1 hp2 =>
      obtain ⟨h1, h2, h3⟩ := h
      simp only [size] at hp1
      have e : slice (pre ++ (p :: ps).flatten) r = .ok p := by
        rw [slice, if_pos]
        · congr 1
          have : r.1.toNat = pre.length := by omega
          rw [this, List.drop_left, List.flatten_cons]
          have : (r.2 - r.1 + 1).toNat = p.length := by omega
          rw [this, List.take_left]
        · simp only [List.length_append, List.flatten_cons]
          omega
      rw [List.mapM_cons, e, Out.ok_bind]
      have := ih h3 (by omega) ps hp2 (pre ++ p)
        (by simp only [List.length_append]; omega)
      simp only [List.flatten_cons] at this ⊢
      rw [← List.append_assoc, this]
      rfl

theorem place_all {a b : Int} {rs : List (Int × Int)} (h : Contig a b rs) (ha : 0 ≤ a)
    (ps : List (List ℚ)) (hp : Sized rs ps) (pre rest : List ℚ) (hpre : (pre.length : Int) = a)
    (hrest : (rest.length : Int) = b - a) :
    (rs.zip ps).foldlM place (pre ++ rest) = .ok (pre ++ ps.flatten) := by
  induction rs generalizing a ps pre rest with
  | nil =>
    cases hp
    simp only [Contig] at h
    have : rest = [] := List.length_eq_zero_iff.mp (by omega)
    simp [this]
  | cons r rs ih =>
    cases hp with
    | @cons _ p _ ps hp1 hp2 =>
      obtain ⟨h1, h2, h3⟩ := h
      have hle := h3.le
      simp only [size] at hp1
      have e : place (pre ++ rest) (r, p) = .ok ((pre ++ p) ++ rest.drop p.length) := by
        have e1 : r.1.toNat = pre.length := by omega
        have e2 : (r.2 - r.1 + 1).toNat = p.length := by omega
        simp only [place, e1, e2]
        rw [if_pos]
        · rw [List.take_left, List.take_length, ← List.drop_drop, List.drop_left]
        · simp only [List.length_append]
          omega
      rw [List.zip_cons_cons, List.foldlM_cons, e, Out.ok_bind]
      rw [ih h3 (by omega) ps hp2 (pre ++ p) _ (by simp only [List.length_append]; omega)
        (by simp only [List.length_drop]; omega)]
      simp

theorem gatherBuf_eq {g : List Int} {s : MapState} (hcon : Consistent g s)
    (ps : List (List ℚ)) (hp : Sized s.ranges ps) : gatherBuf s ps = .ok ps.flatten := by
  have := place_all hcon.ranges.2 (by omega) ps hp [] (List.replicate s.count 0) rfl (by simp)
  simpa [gatherBuf] using this

theorem compress_eq {α : Type} {g : List Int} {s : MapState} (hcon : Consistent g s)
    (hg : g.length = s.nxyz) (source : List α) (hs : s.nxyz ≤ source.length) :
    ∃ d, compress s source = .ok d ∧ d.length = s.count ∧
      ∀ (j i : Nat), Primary g (j : Int) i → j < s.count → d[j]? = source[i]? := by
  have key : ∀ j < s.count, ∃ cells i, idx s.backward (j : Int) = .ok cells ∧
      idx cells 0 = .ok i ∧ Primary g (j : Int) i ∧ i < source.length := by
    intro j hj
    obtain ⟨n, _, ho⟩ := hcon.ranges.2.owner (c := (j : Int)) (by omega) (by omega)
    obtain ⟨cells, i, h1, h2, h3, h4, _⟩ := primary_of_ready hcon hg ho
    exact ⟨cells, i, h1, h2, h3, by omega⟩
  have gen : ∀ n ≤ s.count, ∃ d, (List.range n).mapM (fun (j : Nat) => do
        let cells ← idx s.backward (j : Int)
        let ixyz ← idx cells 0
        idx source (ixyz : Int)) = .ok d ∧ d.length = n ∧
      ∀ (j i : Nat), Primary g (j : Int) i → j < n → d[j]? = source[i]? := by
    intro n
    induction n with
    | zero => intro _; exact ⟨[], rfl, rfl, fun j i _ h => absurd h (by omega)⟩
    | succ n ih =>
      intro hn
      obtain ⟨d, e1, e2, e3⟩ := ih (by omega)
      obtain ⟨cells, i, h1, h2, h3, h4⟩ := key n (by omega)
      refine ⟨d ++ [source[i]], ?_, by simp [e2], ?_⟩
      · rw [List.range_succ, List.mapM_append, e1, Out.ok_bind, List.mapM_cons, h1, Out.ok_bind,
          h2, Out.ok_bind, idx_lt h4]
        rfl
      · intro j i' hp hj
        rw [List.getElem?_append]
        by_cases hjn : j < n
        · rw [if_pos (by omega)]; exact e3 j i' hp hjn
        · have : j = n := by omega
          subst this
          have := Primary.unique hp h3
          subst this
          simp [e2, h4]
  exact gen s.count (le_refl _)

theorem writeAll_spec (cells : List Nat) (v : ℚ) (d : List ℚ) (h : ∀ i ∈ cells, i < d.length) :
    ∃ d', cells.foldlM (fun d n => writeAt d n v) d = .ok d' ∧ d'.length = d.length ∧
      ∀ i, d'[i]? = if i ∈ cells then some v else d[i]? := by
  induction cells generalizing d with
  | nil => exact ⟨d, rfl, rfl, by simp⟩
  | cons c cells ih =>
    have hc := h c List.mem_cons_self
    obtain ⟨d', h1, h2, h3⟩ := ih (d.set c v) (by
      intro i hi; rw [List.length_set]; exact h i (List.mem_cons_of_mem _ hi))
    refine ⟨d', ?_, by rw [h2, List.length_set], fun i => ?_⟩
    · rw [List.foldlM_cons, writeAt, if_pos hc, Out.ok_bind, h1]
    · rw [h3]
      by_cases hi : i ∈ cells
      · simp [hi]
      · by_cases e : i = c
        · subst e; simp [hi, hc]
        · simp [hi, e, List.getElem?_set_ne (Ne.symm e)]

theorem expand_spec {g : List Int} {s : MapState} (hcon : Consistent g s)
    (hg : g.length = s.nxyz) (buf dest : List ℚ) (hb : buf.length = s.count) :
    ∃ d, expand s buf dest = .ok d ∧ d.length = s.nxyz ∧
      ∀ (i : Nat) (x : Int), g[i]? = some x →
        (x < 0 → d[i]? = (resize dest s.nxyz 0)[i]?) ∧
        (0 ≤ x → d[i]? = buf[x.toNat]?) := by
  have gen : ∀ n ≤ s.count, ∃ d, (List.range n).foldlM (fun (d : List ℚ) (j : Nat) => do
        let cells ← idx s.backward (j : Int)
        let v ← idx buf (j : Int)
        cells.foldlM (fun d n => writeAt d n v) d) (resize dest s.nxyz 0) = .ok d ∧
      d.length = s.nxyz ∧
      ∀ (i : Nat) (x : Int), g[i]? = some x →
        (x < 0 ∨ (n : Int) ≤ x → d[i]? = (resize dest s.nxyz 0)[i]?) ∧
        (0 ≤ x ∧ x < n → d[i]? = buf[x.toNat]?) := by
    intro n
    induction n with
    | zero =>
      intro _
      exact ⟨_, rfl, length_resize _ _ _, fun i x _ => ⟨fun _ => rfl, fun h => by omega⟩⟩
    | succ n ih =>
      intro hn
      obtain ⟨d, e1, e2, e3⟩ := ih (by omega)
      obtain ⟨cells, hc⟩ : ∃ cells, s.backward[n]? = some cells :=
        ⟨_, List.getElem?_eq_getElem (by rw [hcon.back_len]; omega)⟩
      obtain ⟨v, hv⟩ : ∃ v, buf[n]? = some v :=
        ⟨_, List.getElem?_eq_getElem (by omega)⟩
      have hmem := (hcon.back _ _ hc).2.2
      obtain ⟨d', f1, f2, f3⟩ := writeAll_spec cells v d (by
        intro i hi
        rw [e2, ← hg]
        exact (List.getElem?_eq_some_iff.mp ((hmem i).mp hi)).1)
      refine ⟨d', ?_, by rw [f2, e2], fun i x hx => ?_⟩
      · rw [List.range_succ, List.foldlM_append, e1, Out.ok_bind]
        simp only [List.foldlM_cons, List.foldlM_nil]
        rw [idx_nat hc, Out.ok_bind, idx_nat hv, Out.ok_bind, f1]
        rfl
      · obtain ⟨g1, g2⟩ := e3 i x hx
        rw [f3 i]
        constructor
        · intro h
          rw [if_neg, g1 (by omega)]
          intro hi
          have := (hmem i).mp hi
          rw [hx] at this
          have := Option.some.inj this
          omega
        · intro h
          by_cases hxn : x = n
          · rw [if_pos ((hmem i).mpr (by rw [hx, hxn])), hxn]
            simp [hv]
          · rw [if_neg, g2 (by omega)]
            intro hi
            have := (hmem i).mp hi
            rw [hx] at this
            exact hxn (Option.some.inj this)
  obtain ⟨d, h1, h2, h3⟩ := gen s.count (le_refl _)
  refine ⟨d, h1, h2, fun i x hx => ⟨fun h => (h3 i x hx).1 (Or.inl h), fun h => ?_⟩⟩
  exact (h3 i x hx).2 ⟨h, hcon.count_max.1 x (List.mem_of_getElem? hx)⟩

end Verif.Scatter
