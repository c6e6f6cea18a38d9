import Verif.Ranges.Lemmas

/-! # C01: fresh worker ranges partition the reaction cells -/

namespace Verif.Ranges

/-- C01. For every number of cells and every positive number of workers not larger
than it, `SetEndCells` produces one range per worker, the ranges partition
`0 .. count-1`, every cell has exactly one owner, cells outside have none, and range
sizes differ by at most one. -/
theorem setEndCells_partition (count ntasks : Nat) (h0 : 0 < ntasks) (h : ntasks ≤ count) :
    ∃ rs, setEndCells count ntasks = .ok rs ∧ IsPartition count ntasks rs ∧
      (∀ c : Int, 0 ≤ c → c < count →
        ∃ i, i < ntasks ∧ Owns rs i c ∧ ∀ j, Owns rs j c → j = i) ∧
      (∀ i c, Owns rs i c → 0 ≤ c ∧ c < count) ∧
      (∀ r ∈ rs, ∀ q ∈ rs, size r ≤ size q + 1) := by
  have hlen := cellCounts_length count ntasks h0
  have hsum := cellCounts_sum count ntasks h0
  have hpos : ∀ k ∈ cellCounts count ntasks, 1 ≤ k := by
    intro k hk
    have h1 : 1 ≤ count / ntasks := (Nat.one_le_div_iff h0).mpr h
    rcases cellCounts_mem count ntasks hk with e | e <;> omega
  have hc := fillRanges_contig 0 _ hpos
  rw [hsum, Int.zero_add] at hc
  refine ⟨fillRanges 0 (cellCounts count ntasks), ?_, ⟨?_, hc⟩, ?_, ?_, ?_⟩
  · simp [setEndCells, Nat.ne_of_gt h0]
  · rw [fillRanges_length, hlen]
  · intro c hc0 hc1
    obtain ⟨i, hi, ho⟩ := hc.owner hc0 hc1
    exact ⟨i, by rwa [fillRanges_length, hlen] at hi, ho, fun j hj => hc.owner_unique hj ho⟩
  · intro i c ho
    exact hc.owns_bounds ho
  · intro r hr q hq
    have hs := fillRanges_size 0 (cellCounts count ntasks)
    have hr' : size r ∈ (cellCounts count ntasks).map (fun k : Nat => (k : Int)) := by
      rw [← hs]; exact List.mem_map_of_mem hr
    have hq' : size q ∈ (cellCounts count ntasks).map (fun k : Nat => (k : Int)) := by
      rw [← hs]; exact List.mem_map_of_mem hq
    obtain ⟨a, ha, ea⟩ := List.mem_map.mp hr'
    obtain ⟨b, hb, eb⟩ := List.mem_map.mp hq'
    have h1 := cellCounts_mem _ _ ha
    have h2 := cellCounts_mem _ _ hb
    omega

/-- The hypotheses are met: 10 cells, 4 workers, giving ranges of 3, 3, 2, 2 cells. -/
example : 0 < 4 ∧ 4 ≤ 10 ∧ setEndCells 10 4 = .ok [(0, 2), (3, 5), (6, 7), (8, 9)] := by decide

/-- Without the hypothesis `ntasks ≤ count` some ranges are empty, so the guard in
`CreateMapping` and the clamp in `Construct` are needed. -/
theorem setEndCells_empty_range (count ntasks : Nat) (h : count < ntasks) :
    ∃ rs, setEndCells count ntasks = .ok rs ∧ ∃ r ∈ rs, r.2 < r.1 := by
  have h0 : 0 < ntasks := by omega
  refine ⟨fillRanges 0 (cellCounts count ntasks), by simp [setEndCells, Nat.ne_of_gt h0], ?_⟩
  have hd : count / ntasks = 0 := Nat.div_eq_of_lt h
  have hmem : (0 : Int) ∈ (fillRanges 0 (cellCounts count ntasks)).map size := by
    rw [fillRanges_size]
    refine List.mem_map.mpr ⟨0, ?_, rfl⟩
    simp only [cellCounts, hd, List.mem_append, List.mem_replicate]
    right; exact ⟨by rw [Nat.zero_mul]; omega, trivial⟩
  obtain ⟨r, hr, hs⟩ := List.mem_map.mp hmem
  exact ⟨r, hr, by unfold size at hs; omega⟩

example : (2 : Nat) < 3 := by decide

end Verif.Ranges
