import Verif.Ranges.Spec
import Verif.Ranges.Model

/-! # Helper lemmas about ranges -/

namespace Verif.Ranges

theorem Contig.le {a b : Int} {rs : List (Int × Int)} (h : Contig a b rs) : a ≤ b := by
  induction rs generalizing a with
  | nil => simp only [Contig] at h; omega
  | cons r rs ih =>
    obtain ⟨h1, h2, h3⟩ := h
    have := ih h3
    omega

theorem Contig.owns_bounds {a b : Int} {rs : List (Int × Int)} (h : Contig a b rs)
    {i : Nat} {c : Int} (ho : Owns rs i c) : a ≤ c ∧ c < b := by
  induction rs generalizing a i with
  | nil => obtain ⟨r, hr, _⟩ := ho; simp at hr
  | cons r rs ih =>
    obtain ⟨h1, h2, h3⟩ := h
    have hle := h3.le
    obtain ⟨q, hq, hq1, hq2⟩ := ho
    cases i with
    | zero => simp at hq; subst hq; omega
    | succ i =>
      have := ih h3 (i := i) ⟨q, by simpa using hq, hq1, hq2⟩
      omega

theorem Contig.owner {a b : Int} {rs : List (Int × Int)} (h : Contig a b rs)
    {c : Int} (h1 : a ≤ c) (h2 : c < b) : ∃ i, i < rs.length ∧ Owns rs i c := by
  induction rs generalizing a with
  | nil => simp only [Contig] at h; omega
  | cons r rs ih =>
    obtain ⟨e1, e2, e3⟩ := h
    by_cases hc : c ≤ r.2
    · exact ⟨0, by simp, r, by simp, by omega, hc⟩
    · obtain ⟨i, hi, q, hq, hq1, hq2⟩ := ih e3 (by omega)
      exact ⟨i + 1, by simp; omega, q, by simpa using hq, hq1, hq2⟩

theorem Contig.owner_unique {a b : Int} {rs : List (Int × Int)} (h : Contig a b rs)
    {i j : Nat} {c : Int} (hi : Owns rs i c) (hj : Owns rs j c) : i = j := by
  induction rs generalizing a i j with
  | nil => obtain ⟨r, hr, _⟩ := hi; simp at hr
  | cons r rs ih =>
    obtain ⟨e1, e2, e3⟩ := h
    cases i with
    | zero =>
      cases j with
      | zero => rfl
      | succ j =>
        obtain ⟨q, hq, hq1, hq2⟩ := hi
        simp at hq; subst hq
        obtain ⟨p, hp, hp1, hp2⟩ := hj
        have := e3.owns_bounds (i := j) (c := c) ⟨p, by simpa using hp, hp1, hp2⟩
        omega
    | succ i =>
      obtain ⟨q, hq, hq1, hq2⟩ := hi
      have hi' : Owns rs i c := ⟨q, by simpa using hq, hq1, hq2⟩
      cases j with
      | zero =>
        obtain ⟨p, hp, hp1, hp2⟩ := hj
        simp at hp; subst hp
        have := e3.owns_bounds hi'
        omega
      | succ j =>
        obtain ⟨p, hp, hp1, hp2⟩ := hj
        have := ih e3 hi' (j := j) ⟨p, by simpa using hp, hp1, hp2⟩
        omega

theorem fillRanges_length (c : Int) (ks : List Nat) : (fillRanges c ks).length = ks.length := by
  induction ks generalizing c with
  | nil => rfl
  | cons k ks ih => simp [fillRanges, ih]

theorem fillRanges_contig (c : Int) (ks : List Nat) (h : ∀ k ∈ ks, 1 ≤ k) :
    Contig c (c + (ks.sum : Nat)) (fillRanges c ks) := by
  induction ks generalizing c with
  | nil => simp [fillRanges, Contig]
  | cons k ks ih =>
    have hk := h k (by simp)
    have := ih (c + k) (fun x hx => h x (by simp [hx]))
    refine ⟨rfl, by simp only; omega, ?_⟩
    simp only [List.sum_cons]
    rw [show c + (k : Int) - 1 + 1 = c + k by omega]
    rw [show c + ((k + ks.sum : Nat) : Int) = c + k + (ks.sum : Nat) by push_cast; omega]
    exact this

theorem fillRanges_size (c : Int) (ks : List Nat) :
    (fillRanges c ks).map size = ks.map (fun k : Nat => (k : Int)) := by
  induction ks generalizing c with
  | nil => rfl
  | cons k ks ih =>
    simp only [fillRanges, List.map_cons, ih, size, List.cons.injEq, and_true]
    omega

theorem cellCounts_length (count ntasks : Nat) (h : 0 < ntasks) :
    (cellCounts count ntasks).length = ntasks := by
  have := Nat.mod_lt count h
  have hd := Nat.div_add_mod count ntasks
  have hm : count / ntasks * ntasks = ntasks * (count / ntasks) := Nat.mul_comm _ _
  simp only [cellCounts, List.length_append, List.length_replicate]
  omega

theorem cellCounts_sum (count ntasks : Nat) (h : 0 < ntasks) :
    (cellCounts count ntasks).sum = count := by
  have hlt := Nat.mod_lt count h
  have hd := Nat.div_add_mod count ntasks
  have hm : count / ntasks * ntasks = ntasks * (count / ntasks) := Nat.mul_comm _ _
  simp only [cellCounts, List.sum_append, List.sum_replicate_nat]
  have he : count - count / ntasks * ntasks = count % ntasks := by omega
  rw [he, Nat.mul_add, Nat.mul_one, Nat.sub_mul]
  have : count % ntasks * (count / ntasks) ≤ ntasks * (count / ntasks) :=
    Nat.mul_le_mul_right _ (Nat.le_of_lt hlt)
  omega

theorem cellCounts_mem (count ntasks : Nat) {k : Nat} (hk : k ∈ cellCounts count ntasks) :
    k = count / ntasks ∨ k = count / ntasks + 1 := by
  simp only [cellCounts, List.mem_append, List.mem_replicate] at hk
  omega

end Verif.Ranges
