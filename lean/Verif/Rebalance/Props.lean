import Verif.Rebalance.Lemmas
import Mathlib.Algebra.Order.BigOperators.Group.List

/-! # C05, C06: rebalancing keeps a partition of the reaction cells -/

namespace Verif.Rebalance

open Verif.Ranges

theorem size_pos {a b : Int} {rs : List (Int × Int)} (h : Contig a b rs) :
    ∀ r ∈ rs, 1 ≤ size r := by
  induction rs generalizing a with
  | nil => simp
  | cons x xs ih =>
    intro r hr
    rcases List.mem_cons.mp hr with e | e
    · subst e; have := h.2.1; unfold size; omega
    · exact ih h.2.2 r e

theorem sum_pos_of_mem {l : List ℚ} (h : ∀ x ∈ l, 0 ≤ x) (hp : ∃ x ∈ l, 0 < x) : 0 < l.sum := by
  induction l with
  | nil => simp at hp
  | cons x xs ih =>
    have h0 : ∀ y ∈ xs, 0 ≤ y := fun y hy => h y (by simp [hy])
    have hs : 0 ≤ xs.sum := List.sum_nonneg h0
    rw [List.sum_cons]
    obtain ⟨y, hy, hy0⟩ := hp
    rcases List.mem_cons.mp hy with e | e
    · subst e; linarith
    · have := ih h0 ⟨y, e, hy0⟩
      have := h x (by simp)
      linarith

theorem perCellTimes_pos {t : List ℚ} {rs : List (Int × Int)} {a b : Int} (hc : Contig a b rs)
    (ht : ∀ x ∈ t, 0 ≤ x) (hp : ∃ x ∈ t, 0 < x) : ∀ x ∈ perCellTimes t rs, 0 < x := by
  intro x hx
  simp only [perCellTimes, List.mem_map] at hx
  obtain ⟨⟨u, r⟩, hm, e⟩ := hx
  have hu := ht u (List.of_mem_zip hm).1
  have hr := size_pos hc r (List.of_mem_zip hm).2
  have hsz : (0 : ℚ) < ((perCellTimes.size r : Int) : ℚ) := by
    have : 1 ≤ perCellTimes.size r := hr
    exact_mod_cast (by omega : 0 < perCellTimes.size r)
  subst e
  apply div_pos _ hsz
  split
  · have h1 := sum_pos_of_mem ht hp
    have h2 : (0 : ℚ) < t.length := by
      obtain ⟨y, hy, _⟩ := hp
      exact_mod_cast List.length_pos_of_mem hy
    have := div_pos h1 h2
    linarith
  · rename_i hne
    exact lt_of_le_of_ne hu (Ne.symm hne)

theorem roundedCells_pos (count : Nat) (r0 : ℚ) (r : List ℚ) :
    (∀ c ∈ roundedCells count r0 r, 1 ≤ c) ∧ (roundedCells count r0 r).length = r.length := by
  constructor
  · intro c hc
    simp only [roundedCells, List.mem_map] at hc
    obtain ⟨x, _, e⟩ := hc
    subst e
    split <;> omega
  · simp [roundedCells]

theorem newCells_spec (count : Nat) (r : List ℚ) (hne : r ≠ []) (hr : ∀ x ∈ r, 0 < x)
    (hc : r.length ≤ count) :
    ∃ cs, newCells count r = .ok cs ∧ cs.sum = count ∧ cs.length = r.length ∧ ∀ c ∈ cs, 1 ≤ c := by
  cases r with
  | nil => exact absurd rfl hne
  | cons r0 rs =>
    have hany : ((r0 :: rs).any (fun x => decide (x = 0))) = false := by
      rw [List.any_eq_false]
      intro x hx
      have := hr x hx
      simp only [decide_eq_true_eq]
      exact ne_of_gt this
    obtain ⟨hp, hl⟩ := roundedCells_pos count r0 (r0 :: rs)
    simp only [newCells, hany, Bool.false_eq_true, if_false]
    generalize roundedCells count r0 (r0 :: rs) = cells at hp hl
    split
    · rename_i hd
      have hne' : cells ≠ [] := by intro h; subst h; simp at hl
      obtain ⟨a, b, c⟩ := addCells_spec (r0 :: rs) ((count : Int) - cells.sum).toNat cells hne' hl hp
      exact ⟨_, rfl, by rw [a]; omega, by rw [b, hl], c⟩
    · split
      · obtain ⟨cs, a, b, c, d⟩ := removeCells_spec (r0 :: rs) hr (-((count : Int) - cells.sum)).toNat
          cells hl hp (by rw [hl]; omega)
        exact ⟨cs, a, by rw [b]; omega, by rw [c, hl], d⟩
      · exact ⟨cells, rfl, by omega, hl, hp⟩

/-- C05. Rebalancing by worker keeps a partition: for every number of cells and workers,
every current partition, every list of measured worker times that is not negative and
not all zero, and every fraction up to 1, the new ranges are again a partition of the
same cells into the same number of non-empty ranges. -/
theorem rebalanceLoad_partition (count : Nat) (rs : List (Int × Int)) (t : List ℚ) (f : ℚ)
    (hrs : IsPartition count rs.length rs) (hl : t.length = rs.length) (ht : ∀ x ∈ t, 0 ≤ x)
    (hp : ∃ x ∈ t, 0 < x) (hf : f ≤ 1) :
    ∃ rs', rebalanceLoad count rs t f = .ok rs' ∧ IsPartition count rs.length rs' := by
  unfold rebalanceLoad
  simp only
  split
  · exact ⟨rs, rfl, hrs⟩
  · split
    · exact ⟨rs, rfl, hrs⟩
    · split
      · exact ⟨rs, rfl, hrs⟩
      · rename_i h1 h2 h3
        have hlr : (perCellTimes t rs).length = rs.length := by
          simp [perCellTimes, hl]
        have hpos := perCellTimes_pos hrs.2 ht hp
        have hne : perCellTimes t rs ≠ [] := by
          intro h; rw [h] at hlr; simp at hlr; omega
        obtain ⟨cs, e, hsum, hlen, hcs⟩ := newCells_spec count _ hne hpos (by omega)
        have hlast := endsOf_last cs (-1) (by intro h; subst h; simp at hlen; omega)
        obtain ⟨hends, hel⟩ := endsOf_spec cs (-1) hcs
        rw [hsum] at hlast hends
        rw [e, Out.ok_bind]
        have hlast' : (endsOf (-1) cs).getLast? = some ((count : Int) - 1) := by
          rw [hlast]; congr 1
        rw [if_neg (by rw [hlast']; simp)]
        split
        · exact ⟨rs, rfl, hrs⟩
        · have hEl : (rs.map Prod.snd).length = (endsOf (-1) cs).length := by
            rw [List.length_map, hel, hlen, hlr]
          refine ⟨_, rfl, ?_, ?_⟩
          · rw [fromEnds_length, blendEnds_length _ _ _ hEl, List.length_map]
          · apply blend_partition (shiftThread_good f (by linarith [lt_of_not_ge h2]) hf)
              (Contig.ends hrs.2) _ hEl
            simpa using hends

/-- A case meeting the hypotheses in which cells move. -/
example : rebalanceLoad 12 [(0, 3), (4, 7), (8, 11)] [8, 4, 2] (1 / 2) =
    .ok [(0, 2), (3, 6), (7, 11)] := by decide +kernel

/-- If every worker reports no time the new sizes are computed from 0/0. -/
theorem rebalanceLoad_no_times_ub :
    rebalanceLoad 12 [(0, 3), (4, 7), (8, 11)] [0, 0, 0] (1 / 2) = .ub := by decide +kernel

/-- The property C05 for arbitrary fractions. `SetRebalanceFraction` accepts any value,
`/repo/src/PhreeqcRM.cpp:12098-12124`. -/
def LoadKeepsPartition (f : ℚ) : Prop :=
  ∀ (count : Nat) (rs : List (Int × Int)) (t : List ℚ), IsPartition count rs.length rs →
    t.length = rs.length → (∀ x ∈ t, 0 ≤ x) → (∃ x ∈ t, 0 < x) →
    ∃ rs', rebalanceLoad count rs t f = .ok rs' ∧ IsPartition count rs.length rs'

/-- C05 needs the upper bound on the fraction: with the fraction 2 worker 0 ends up with
a negative last cell. -/
theorem rebalanceLoad_fraction_violated : ¬ LoadKeepsPartition 2 := by
  intro h
  obtain ⟨rs', e, hp⟩ := h 12 [(0, 9), (10, 10), (11, 11)] [10, 1 / 10, 1 / 10]
    ⟨rfl, by simp [Contig]⟩ rfl (by simp) ⟨10, by simp, by norm_num⟩
  have e' : rebalanceLoad 12 [(0, 9), (10, 10), (11, 11)] [10, 1 / 10, 1 / 10] 2 =
      .ok [(0, -9), (-8, 2), (3, 11)] := by decide +kernel
  rw [e'] at e
  cases e
  have := hp.2.2.1
  simp at this

/-- The property C06: for a fraction `f`, rebalancing by cell keeps a partition. -/
def PerCellKeepsPartition (f : ℚ) : Prop :=
  ∀ (count : Nat) (rs : List (Int × Int)) (times : List ℚ), IsPartition count rs.length rs →
    times.length = count → (∀ x ∈ times, 0 ≤ x) →
    ∃ rs', rebalancePerCell count rs times f = .ok rs' ∧ IsPartition count rs.length rs'

/-- C06, the part that holds: fractions from 1/2 to 1 (the default is 1/2), and
fractions that switch rebalancing off. Missing: fractions strictly between 0 and 1/2,
for which the property is false, see `rebalancePerCell_partition_violated`. -/
theorem rebalancePerCell_partition_partial (f : ℚ) (hf : f ≤ 0 ∨ (1 / 2 ≤ f ∧ f ≤ 1)) :
    PerCellKeepsPartition f := by
  intro count rs times hrs hl _
  unfold rebalancePerCell
  simp only
  split
  · exact ⟨rs, rfl, hrs⟩
  · split
    · exact ⟨rs, rfl, hrs⟩
    · split
      · exact ⟨rs, rfl, hrs⟩
      · rename_i h1 h2 h3
        obtain ⟨new, e, hlen, hcon⟩ := splitWork_spec count rs.length times (taskTimes times rs).sum
          hl (rs.length - 1) 0 0 (by omega) (by omega)
        simp only [Int.natCast_zero] at e hcon
        rw [e, Out.ok_bind]
        split
        · exact ⟨rs, rfl, hrs⟩
        · have hEl : (rs.map Prod.snd).length = (new.map Prod.snd).length := by
            rw [List.length_map, List.length_map, hlen]; omega
          refine ⟨_, rfl, ?_, ?_⟩
          · rw [fromEnds_length, blendEnds_length _ _ _ hEl, List.length_map]
          · rcases hf with hf | hf
            · exact absurd hf h2
            · exact blend_partition (shiftCell_good f hf.1 hf.2) (Contig.ends hrs.2)
                (Contig.ends hcon) hEl

/-- A case meeting the hypotheses in which cells move. -/
example : rebalancePerCell 12 [(0, 0), (1, 1), (2, 11)] [9, 9, 9, 9, 19, 19, 6, 6, 6, 6, 6, 14]
    (1 / 2) = .ok [(0, 1), (2, 3), (4, 11)] := by decide +kernel

/-- C06 fails for the fraction 3/10, which `SetRebalanceFraction` accepts: a truncated
shift of zero cells is replaced by the full shift, so a boundary can overtake the next
one. Here worker 1 gets an empty range and cell 3 belongs to workers 0 and 2. -/
theorem rebalancePerCell_partition_violated : ¬ PerCellKeepsPartition (3 / 10) := by
  intro h
  obtain ⟨rs', e, hp⟩ := h 12 [(0, 0), (1, 1), (2, 11)] [9, 9, 9, 9, 19, 19, 6, 6, 6, 6, 6, 14]
    ⟨rfl, by simp [Contig]⟩ rfl (by simp)
  have e' : rebalancePerCell 12 [(0, 0), (1, 1), (2, 11)]
      [9, 9, 9, 9, 19, 19, 6, 6, 6, 6, 6, 14] (3 / 10) =
      .ok [(0, 3), (4, 2), (3, 11)] := by decide +kernel
  rw [e'] at e
  cases e
  have := hp.2.2.2.2.1
  simp at this

end Verif.Rebalance
