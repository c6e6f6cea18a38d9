import Verif.Gas.Lemmas

/-! # What the getters read -/

namespace Verif.Gas

open Verif.Mapping Verif.Grid Verif.Transfer Verif.Ranges Verif.OMap Verif.NameDouble Verif.Mixing
open Verif.State
open Verif.Conc (Primary)

/-- A getter whose value depends on the worker: the owner's value is returned. -/
theorem getGrid_own {g : List Int} {s : MapState} (hcon : Consistent g s)
    (hg : g.length = s.nxyz) (nc : Nat) (init : List ℚ) (hinit : init.length = s.nxyz * nc)
    (V : Nat → Int → List ℚ) (hV : ∀ n j, (V n j).length = nc) :
    ∃ c, getGrid s nc init (fun n j => .ok (V n j)) = .ok c ∧ c.length = s.nxyz * nc ∧
      ∀ i k x, k < nc → g[i]? = some x →
        (x < 0 → c[k * s.nxyz + i]? = init[k * s.nxyz + i]?) ∧
        (∀ n, Owns s.ranges n x → c[k * s.nxyz + i]? = (V n x)[k]?) := by
  let N : Int → Nat := fun j => match (ownedCells s.ranges).find? (fun p => p.2 = j) with
    | some p => p.1
    | none => 0
  have hN : ∀ n j, Owns s.ranges n j → N j = n := by
    intro n j ho
    have hm := (mem_ownedCells _ _ _).mpr ho
    cases hf : (ownedCells s.ranges).find? (fun p => p.2 = j) with
    | none =>
      have := List.find?_eq_none.mp hf (n, j) hm
      simp at this
    | some p =>
      simp only [N, hf]
      have h1 := List.find?_some hf
      have h2 := List.mem_of_find?_eq_some hf
      have h3 := (mem_ownedCells s.ranges p.1 p.2).mp h2
      simp at h1
      rw [h1] at h3
      exact hcon.ranges.2.owner_unique h3 ho
  obtain ⟨c, h1, h2, h3⟩ := getGrid_spec hcon hg nc init hinit (fun n j => .ok (V n j))
    (fun j => V (N j) j) (fun n j ho => ⟨by simp only [hN n j ho], hV _ _⟩)
  refine ⟨c, h1, h2, fun i k x hk hx => ?_⟩
  obtain ⟨a, b⟩ := h3 i k x hk hx
  rw [Nat.mul_comm] at a b
  refine ⟨a, fun n ho => ?_⟩
  rw [b (hcon.ranges.2.owns_bounds ho).1]
  simp only [hN n x ho]

/-- The value reported for a component. -/
def reported (field : GasComp → ℚ) (o : Option (Ent GasPhase)) (nm : Name) : ℚ :=
  match o with
  | none => -1
  | some e => getComp field e.val.comps nm

theorem getGasComp_spec {g : List Int} {s : MapState} (hcon : Consistent g s)
    (hg : g.length = s.nxyz) (field : GasComp → ℚ) (names : List Name) (w : Nat → GasMap) :
    ∃ c, getGasComp field s names w = .ok c ∧ c.length = s.nxyz * names.length ∧
      ∀ i k x nm, names[k]? = some nm → g[i]? = some x →
        (x < 0 → c[k * s.nxyz + i]? = some fillValue) ∧
        (∀ n, Owns s.ranges n x →
          c[k * s.nxyz + i]? = some (reported field (find (w n) x) nm)) := by
  obtain ⟨c, h1, h2, h3⟩ := getGrid_own hcon hg names.length
    (List.replicate (s.nxyz * names.length) fillValue) (by simp)
    (fun n j => names.map (fun nm => reported field (find (w n) j) nm)) (fun n j => by simp)
  refine ⟨c, h1, h2, fun i k x nm hnm hx => ?_⟩
  have hk : k < names.length := (List.getElem?_eq_some_iff.mp hnm).1
  have hi : i < s.nxyz := by rw [← hg]; exact (List.getElem?_eq_some_iff.mp hx).1
  obtain ⟨a, b⟩ := h3 i k x hk hx
  refine ⟨fun hneg => ?_, fun n ho => ?_⟩
  · rw [a hneg, List.getElem?_replicate, if_pos]
    calc k * s.nxyz + i < k * s.nxyz + s.nxyz := by omega
      _ = (k + 1) * s.nxyz := by rw [Nat.succ_mul]
      _ ≤ names.length * s.nxyz := Nat.mul_le_mul_right _ hk
      _ = s.nxyz * names.length := Nat.mul_comm _ _
  · rw [b n ho, List.getElem?_map, hnm]
    rfl

end Verif.Gas
