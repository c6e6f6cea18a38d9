import Verif.CellRun.Spec
import Mathlib.Tactic.Linarith
import Mathlib.Tactic.FieldSimp

/-! # Helper lemmas: what the copies between slots do -/

namespace Verif.CellRun

variable {D : Type}

theorem rxnCopy_apply (m : Maps D) (k : Kind) (i j : Int) (k' : Kind) (n : Int) :
    rxnCopy m k i j k' n = if k' = k ∧ n = j then (m k i).or (m k' n) else m k' n := by
  unfold rxnCopy
  cases h : m k i with
  | none => simp
  | some d => simp [put]

theorem copies_self (m : Maps D) (k : Kind) (n : Int) : copies m k n n = m := by
  simp [copies]

theorem fold_copy (u : Use) : ∀ (L : List Kind) (m : Maps D) (k : Kind) (n : Int), L.Nodup →
    L.foldl (fun m' k => if u.inn k then rxnCopy m' k (u.num k) (-2) else m') m k n =
      if k ∈ L ∧ u.inn k = true ∧ n = -2 then (m k (u.num k)).or (m k n) else m k n
  | [], m, k, n, _ => by simp
  | a :: L, m, k, n, h => by
    rw [List.nodup_cons] at h
    rw [List.foldl_cons, fold_copy u L _ k n h.2]
    by_cases hka : k = a
    · subst hka
      rw [if_neg (fun hh => h.1 hh.1)]
      cases hu : u.inn k with
      | false => simp
      | true => simp [rxnCopy_apply]
    · have hne : ∀ n', (if u.inn a then rxnCopy m a (u.num a) (-2) else m) k n' = m k n' := by
        intro n'
        split
        · rw [rxnCopy_apply, if_neg (fun hh => hka hh.1)]
        · rfl
      rw [hne, hne]
      simp [hka]

theorem copyMaps_apply (m : Maps D) (u : Use) (k : Kind) (n : Int) :
    copyMaps m u k n =
      if u.inn k = true ∧ n = -2 then (m k (u.num k)).or (m k n) else m k n := by
  unfold copyMaps
  rw [fold_copy _ _ _ _ _ (by decide)]
  have : k ∈ [Kind.mix, .solution, .pp, .reaction, .exchange, .kinetics, .surface, .temperature,
    .pressure, .gas, .ss] := by cases k <;> decide
  simp [this]

/-- Kinds that `saver` writes. -/
def Kind.kept (k : Kind) : Bool := k.saved || k == .solution || k == .kinetics

theorem saveOne_apply (u : Use) (v : Save) (o : Output D) (m : Maps D) (k k' : Kind) (n : Int)
    (h : v.on k = true → v.last k = v.num k) :
    saveOne u v o m k k' n =
      if k' = k ∧ v.on k = true ∧ u.inn k = true ∧ n = v.num k then some (o.x k) else m k' n := by
  unfold saveOne
  cases hv : v.on k with
  | false => simp
  | true =>
    rw [if_pos rfl, h hv, copies_self]
    cases hu : u.inn k with
    | false => simp
    | true =>
      rw [if_pos rfl]
      unfold put
      simp

theorem fold_save (u : Use) (v : Save) (o : Output D) : ∀ (L : List Kind) (m : Maps D) (k : Kind)
    (n : Int), (∀ k ∈ L, v.on k = true → v.last k = v.num k) →
    L.foldl (saveOne u v o) m k n =
      if k ∈ L ∧ v.on k = true ∧ u.inn k = true ∧ n = v.num k then some (o.x k) else m k n
  | [], m, k, n, _ => by simp
  | a :: L, m, k, n, h => by
    rw [List.foldl_cons, fold_save u v o L _ k n (fun k hk => h k (List.mem_cons_of_mem _ hk)),
      saveOne_apply _ _ _ _ _ _ _ (h a (by simp))]
    by_cases hka : k = a
    · subst hka
      by_cases hc : v.on k = true ∧ u.inn k = true ∧ n = v.num k
      · simp [hc]
      · rw [if_neg (fun hh => hc hh.2), if_neg (fun hh => hc hh.2), if_neg (fun hh => hc hh.2)]
    · simp [hka]

theorem saveKinetics_apply (u : Use) (v : Save) (m : Maps D) (k : Kind) (n : Int)
    (h : v.on .kinetics = true → v.last .kinetics = v.num .kinetics) :
    saveKinetics u v m k n =
      if k = .kinetics ∧ v.on .kinetics = true ∧ u.inn .kinetics = true ∧ n = v.num .kinetics then
        (m .kinetics (-2)).or (m k n) else m k n := by
  unfold saveKinetics
  cases hv : v.on .kinetics with
  | false => simp
  | true =>
    cases hu : u.inn .kinetics with
    | false => simp
    | true =>
      rw [if_pos (show (true && true) = true from rfl)]
      cases hm : m .kinetics (-2) with
      | none => simp
      | some d =>
        rw [h hv]
        have : (v.num .kinetics + 1 - v.num .kinetics).toNat = 1 := by
          omega
        simp only [this, List.range_one, List.foldl_cons, List.foldl_nil, Nat.cast_zero, Int.add_zero]
        rw [rxnCopy_apply, hm]
        simp

theorem saver_apply (m : Maps D) (u : Use) (v : Save) (o : Output D) (k : Kind) (n : Int)
    (h : ∀ k, k.kept = true → v.on k = true → v.last k = v.num k) :
    saver m u v o k n =
      if v.on k = true ∧ n = v.num k then
        match k with
        | .solution => some o.sol
        | .pp | .exchange | .surface | .gas | .ss => if u.inn k then some (o.x k) else m k n
        | .kinetics => if u.inn .kinetics then (m .kinetics (-2)).or (m k n) else m k n
        | _ => m k n
      else m k n := by
  unfold saver
  rw [saveKinetics_apply _ _ _ _ _ (h .kinetics (by decide))]
  have hs : ∀ k ∈ [Kind.pp, .exchange, .surface, .gas, .ss], v.on k = true →
      v.last k = v.num k := by
    intro k hk
    refine h k ?_
    revert hk; cases k <;> decide
  rw [fold_save _ _ _ _ _ _ _ hs, fold_save _ _ _ _ _ _ _ hs]
  have hsol : ∀ k' n', (if v.on .solution = true then
        copies (put m .solution (v.num .solution) o.sol) .solution (v.num .solution)
          (v.last .solution) else m) k' n' =
      if k' = .solution ∧ v.on .solution = true ∧ n' = v.num .solution then some o.sol
      else m k' n' := by
    intro k' n'
    cases hv : v.on .solution with
    | false => simp
    | true =>
      rw [if_pos rfl, h .solution (by decide) hv, copies_self]
      unfold put
      simp
  rw [hsol, hsol]
  by_cases hc : v.on k = true ∧ n = v.num k
  · obtain ⟨h1, h2⟩ := hc
    subst h2
    cases k <;> simp [h1]
  · rw [if_neg hc]
    cases k <;> simp_all

end Verif.CellRun
