import Verif.Protocol.Model
import Verif.Grid.Lemmas

/-! # Lemmas on slices and staging -/

namespace Verif.Protocol

open Verif.Grid

theorem slice_lt {nxyz n i j : Nat} (hi : i < n) (hj : j < nxyz) : i * nxyz + j < nxyz * n := by
  calc i * nxyz + j < i * nxyz + nxyz := by omega
    _ = (i + 1) * nxyz := by rw [Nat.succ_mul]
    _ ≤ n * nxyz := Nat.mul_le_mul_right _ hi
    _ = nxyz * n := Nat.mul_comm _ _

theorem slice_inj {nxyz i j i' j' : Nat} (hj : j < nxyz) (hj' : j' < nxyz)
    (h : i * nxyz + j = i' * nxyz + j') : i = i' ∧ j = j' := by
  have hpos : 0 < nxyz := by omega
  have e1 : (i * nxyz + j) / nxyz = i := by
    rw [Nat.mul_comm, Nat.mul_add_div hpos, Nat.div_eq_of_lt hj]; rfl
  have e2 : (i' * nxyz + j') / nxyz = i' := by
    rw [Nat.mul_comm, Nat.mul_add_div hpos, Nat.div_eq_of_lt hj']; rfl
  have : i = i' := by rw [← e1, ← e2, h]
  subst this
  exact ⟨rfl, by omega⟩

theorem writeSlice_spec {nxyz n i : Nat} (hi : i < n) {c v : List ℚ} (hc : nxyz ≤ c.length)
    (hv : v.length = nxyz * n) :
    ∃ v', writeSlice nxyz i c v = .ok v' ∧ v'.length = nxyz * n ∧
      ∀ i' j, i' < n → j < nxyz →
        v'[i' * nxyz + j]? = if i' = i then c[j]? else v[i' * nxyz + j]? := by
  have gen : ∀ m, m ≤ nxyz → ∃ v', (List.range m).foldlM (fun v (j : Nat) => do
        let x ← idx c (j : Int)
        writeAt v (i * nxyz + j) x) v = .ok v' ∧ v'.length = nxyz * n ∧
      ∀ i' j, i' < n → j < nxyz →
        v'[i' * nxyz + j]? = if i' = i ∧ j < m then c[j]? else v[i' * nxyz + j]? := by
    intro m
    induction m with
    | zero => exact fun _ => ⟨v, rfl, hv, fun i' j _ _ => by simp⟩
    | succ m ih =>
      intro hm
      obtain ⟨v', h1, h2, h3⟩ := ih (by omega)
      have hcm : c[m]? = some c[m] := List.getElem?_eq_getElem (by omega)
      have hlt : i * nxyz + m < v'.length := by rw [h2]; exact slice_lt hi (by omega)
      refine ⟨v'.set (i * nxyz + m) c[m], ?_, by simpa using h2, fun i' j hi' hj => ?_⟩
      · rw [List.range_succ, List.foldlM_append, h1]
        simp [List.foldlM_cons, idx_nat hcm, writeAt, hlt]
      · rw [List.getElem?_set]
        by_cases he : i * nxyz + m = i' * nxyz + j
        · obtain ⟨rfl, rfl⟩ := slice_inj (by omega) hj he
          simp [hlt, hcm]
        · rw [if_neg he, h3 i' j hi' hj]
          by_cases hii : i' = i
          · subst hii
            have : j ≠ m := fun h => he (by rw [h])
            by_cases hjm : j < m
            · simp [hjm, show j < m + 1 by omega]
            · simp [hjm, show ¬ j < m + 1 by omega]
          · simp [hii]
  obtain ⟨v', h1, h2, h3⟩ := gen nxyz (Nat.le_refl _)
  exact ⟨v', h1, h2, fun i' j hi' hj => by rw [h3 i' j hi' hj]; simp [hj]⟩

theorem mapM_idx {v : List ℚ} {f : Nat → Nat} : ∀ (l : List Nat), (∀ j ∈ l, f j < v.length) →
    ∃ c, l.mapM (fun j => idx v ((f j : Nat) : Int)) = .ok c ∧ c.length = l.length ∧
      ∀ (k j : Nat), l[k]? = some j → c[k]? = v[f j]?
  | [], _ => ⟨[], rfl, rfl, by simp⟩
  | j :: l, h => by
    obtain ⟨c, h1, h2, h3⟩ := mapM_idx l (fun k hk => h k (List.mem_cons_of_mem _ hk))
    have hj : v[f j]? = some (v[f j]'(h j List.mem_cons_self)) := List.getElem?_eq_getElem _
    refine ⟨v[f j]'(h j List.mem_cons_self) :: c, ?_, by simp [h2], fun k j' hk => ?_⟩
    · rw [List.mapM_cons]
      simp only [idx_nat hj, h1, Out.ok_bind, Out.pure_eq]
    · match k with
      | 0 => simp at hk; subst hk; simp [hj]
      | k + 1 => simp at hk ⊢; exact h3 k j' hk

theorem readSlice_spec {nxyz n i : Nat} (hi : i < n) {v : List ℚ} (hv : v.length = nxyz * n) :
    ∃ c, readSlice nxyz i v = .ok c ∧ c.length = nxyz ∧
      ∀ j, j < nxyz → c[j]? = v[i * nxyz + j]? := by
  obtain ⟨c, h1, h2, h3⟩ := mapM_idx (v := v) (f := fun j => i * nxyz + j) (List.range nxyz)
    (fun j hj => by rw [hv]; exact slice_lt hi (List.mem_range.mp hj))
  exact ⟨c, h1, by simpa using h2, fun j hj => h3 j j (by simp [hj])⟩

end Verif.Protocol
