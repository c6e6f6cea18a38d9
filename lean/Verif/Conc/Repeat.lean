import Verif.Conc.Props

/-! # Reading concentrations twice (C70) -/

namespace Verif.Conc

open Verif.OMap Verif.NameDouble Verif.Mapping Verif.Grid Verif.Ranges

/-- Simplifying twice is simplifying once. -/
theorem simplifyRedox_idem (nd : ND) (hs : Sorted nd) (hg : ∀ p ∈ nd, GoodName p.1) :
    simplifyRedox (simplifyRedox nd) = simplifyRedox nd := by
  obtain ⟨h1, h2⟩ := simplifyRedox_spec nd hs hg
  refine simplifyRedox_plain h1 (fun p hp => ?_)
  have hf : find (simplifyRedox nd) p.1 = some p.2 := find_of_mem h1 hp
  obtain ⟨e1, e2, e3, ⟨q, hq, hst⟩, _⟩ := (h2 p.1 p.2).mp hf
  refine ⟨?_, e1, e2, e3⟩
  obtain ⟨e, he, hcase⟩ := hg q hq
  have hne : '(' ∉ e := fun hm => lt_irrefl _ (he _ hm)
  have : p.1 = e := by
    rw [isState_iff] at hst
    rw [← hst]
    rcases hcase with h | ⟨t, h, _⟩
    · rw [h, List.takeWhile_eq_self_iff]
      intro x hx; simp; rintro rfl; exact hne hx
    · rw [h, List.takeWhile_append_of_pos]
      · simp
      · intro x hx; simp; rintro rfl; exact hne hx
  rw [this]; exact he

/-- Totals as PHREEQC keeps them: a map with well-formed names. -/
def GoodTotals (s : CState) : Prop :=
  ∀ n j x, Owns s.map.ranges n j → s.sol n j = some x →
    Sorted x.totals ∧ ∀ p ∈ x.totals, GoodName p.1

theorem foldlM_congr {α β : Type} {f g : β → α → Out β} : ∀ (l : List α) (b : β),
    (∀ a ∈ l, ∀ b, f b a = g b a) → l.foldlM f b = l.foldlM g b
  | [], _, _ => rfl
  | a :: l, b, h => by
    rw [List.foldlM_cons, List.foldlM_cons, h a List.mem_cons_self]
    cases g b a with
    | ok b' => exact foldlM_congr l b' (fun a' ha => h a' (List.mem_cons_of_mem _ ha))
    | throw => rfl
    | ub => rfl

/-- Everything a solution holds except the split of its totals over valence states. -/
def SameBut (x y : Soln) : Prop :=
  y.totalH = x.totalH ∧ y.totalO = x.totalO ∧ y.cb = x.cb ∧ y.massWater = x.massWater ∧
    y.solnVol = x.solnVol ∧ y.density = x.density ∧
    ∀ e, e ≠ "H".toList → e ≠ "O".toList → e ≠ "Charge".toList → Total x.totals e (val y.totals e)

/-- C70. Reading the concentrations changes no amount of any element in any cell, and reading
them again gives the same array. -/
theorem getConcentrations_repeat {s s' : CState} {c : List ℚ} (hgood : GoodTotals s)
    (h : getConcentrations s = .ok (c, s')) :
    (∃ s'', getConcentrations s' = .ok (c, s'')) ∧
    s' = { s with sol := s'.sol } ∧
    (∀ n j, ¬ Owns s.map.ranges n j → s'.sol n j = s.sol n j) ∧
    (∀ n j x, Owns s.map.ranges n j → s.sol n j = some x →
      ∃ y, s'.sol n j = some y ∧ SameBut x y) := by
  obtain ⟨w, u1, u2, u3⟩ := updateCells_spec s.map.ranges (fun _ _ x => Out.ok (simplify x)) s.sol
    (fun _ _ x => simplify x) (fun n j x _ _ => rfl)
  unfold getConcentrations at h
  rw [u1] at h
  cases hg : getGrid s.map s.comps.length
      (List.replicate (s.map.nxyz * s.comps.length) inactive) (cellConc s) with
  | throw => rw [hg] at h; simp at h
  | ub => rw [hg] at h; simp at h
  | ok a =>
    rw [hg] at h
    simp only [Out.ok_bind, Out.ok.injEq, Prod.mk.injEq] at h
    obtain ⟨rfl, rfl⟩ := h
    refine ⟨?_, rfl, u3, ?_⟩
    · obtain ⟨w', v1, _, _⟩ := updateCells_spec s.map.ranges
        (fun _ _ x => Out.ok (simplify x)) w (fun _ _ x => simplify x) (fun n j x _ _ => rfl)
      refine ⟨{ s with sol := w' }, ?_⟩
      have hcell : ∀ n j, Owns s.map.ranges n j →
          cellConc { s with sol := w } n j = cellConc s n j := by
        intro n j ho
        unfold cellConc
        simp only [u2 n j ho]
        cases hx : s.sol n j with
        | none => rfl
        | some x =>
          obtain ⟨hs, hn⟩ := hgood n j x ho hx
          have e1 : simplify (simplify x) = simplify x := by
            simp only [simplify, simplifyRedox_idem _ hs hn]
          have e2 : volDens { s with sol := w } j (simplify x) = volDens s j x := rfl
          simp only [Option.map_some, e1, e2]
      have hgg : getGrid s.map s.comps.length
          (List.replicate (s.map.nxyz * s.comps.length) inactive)
          (cellConc { s with sol := w }) = .ok a := by
        rw [← hg]
        unfold getGrid
        refine foldlM_congr _ _ (fun p hp b => ?_)
        rw [hcell p.1 p.2 ((mem_ownedCells _ _ _).mp hp)]
      unfold getConcentrations
      simp only [hgg, v1, Out.ok_bind]
    · intro n j x ho hx
      refine ⟨simplify x, by simp only [u2 n j ho, hx]; rfl, rfl, rfl, rfl, rfl, rfl, rfl, ?_⟩
      intro e h1 h2 h3
      obtain ⟨hs, hn⟩ := hgood n j x ho hx
      show Total x.totals e (val (simplifyRedox x.totals) e)
      rw [simplifyRedox_total _ hs hn e h1 h2 h3]
      exact getTotalElement_spec _ _

/-- Iron in two valence states and an element in one. -/
def redoxDemo : CState :=
  { demo with
    sol := fun n j => if n = 0 ∧ j = 0 then
        some ⟨0, 0, 0, 0, 1, 1, [("Fe(2)".toList, 1), ("Fe(3)".toList, 2), ("Na".toList, 3)]⟩
      else none }

/-- A module on which the hypothesis of `getConcentrations_repeat` holds. -/
example : GoodTotals redoxDemo := by
  intro n j x _ hx
  simp only [redoxDemo] at hx
  split at hx
  · simp only [Option.some.injEq] at hx
    subst hx
    refine ⟨?_, ?_⟩
    · simp only [Sorted, List.pairwise_cons, List.mem_cons, forall_eq_or_imp, List.not_mem_nil,
        false_imp_iff, implies_true, List.Pairwise.nil, and_self, and_true]
      decide
    · simp only [List.mem_cons, forall_eq_or_imp, List.not_mem_nil, false_imp_iff, implies_true,
        and_true]
      refine ⟨⟨"Fe".toList, by decide, .inr ⟨"2)".toList, by decide, by decide⟩⟩,
        ⟨"Fe".toList, by decide, .inr ⟨"3)".toList, by decide, by decide⟩⟩,
        ⟨"Na".toList, by decide, .inl rfl⟩⟩
  · simp at hx

example : (match getConcentrations redoxDemo with
    | .ok (_, s') => s'.sol 0 0
    | _ => none) = some ⟨0, 0, 0, 0, 1, 1, [("Fe".toList, 3), ("Na".toList, 3)]⟩ := by
  decide +kernel

end Verif.Conc
