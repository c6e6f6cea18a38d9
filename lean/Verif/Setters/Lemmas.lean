import Verif.Setters.Spec
import Verif.Conc.Set
import Verif.Getters.Lemmas

/-! # Lemmas on the setters -/

namespace Verif.Setters

open Verif.Mapping Verif.Grid Verif.Ranges Verif.Getters Verif.Mixing
open Verif.Conc (Primary)

theorem finish_ok (s : RM) (n : String) : s.finish .ok n = (s, .value .ok) := by
  simp [RM.finish, returnHandler, IRM.toInt]

theorem finish_same (s : RM) (r : IRM) (n : String) : SameSettings s (s.finish r n).1 := rfl

theorem finish_bad (s : RM) (r : IRM) (n : String) (hr : r ≠ .ok) :
    Refused s.mode r (s.finish r n).2 := by
  have h : r.toInt < 0 := by cases r <;> simp [IRM.toInt] at * 
  simp only [RM.finish, returnHandler, h, if_true]
  refine ⟨fun e => ?_, fun e => ?_, fun e => ?_, fun e => ?_⟩ <;> simp [e]

theorem finish_refused {m : Int} {r r' : IRM} {s : RM} {n : String} (hr : r ≠ .ok)
    (hm : s.mode = m) (e : r = r') : Refused m r' (s.finish r n).2 := by
  subst hm e; exact finish_bad s r n hr

/-- The value of the first grid cell of a reaction cell. -/
theorem primaryValue_ok {g : List Int} {m : MapState} (hcon : Consistent g m)
    (hg : g.length = m.nxyz) {v : List ℚ} (hv : m.nxyz ≤ v.length) {n : Nat} {j : Int}
    (ho : Owns m.ranges n j) :
    ∃ i x, Primary g j i ∧ v[i]? = some x ∧ primaryValue m v j = .ok x := by
  obtain ⟨cells, i, h1, h2, h3, h4, _, _⟩ := Conc.primary_of_ready hcon hg ho
  have hi : i < v.length := by omega
  refine ⟨i, v[i], h3, List.getElem?_eq_getElem hi, ?_⟩
  simp only [primaryValue, h1, Out.ok_bind, h2]
  exact Conc.idx_lt hi

/-- A loop that stores the value of the first grid cell in every reaction cell. -/
theorem updateCells_primary {σ : Type} {g : List Int} {m : MapState} (hcon : Consistent g m)
    (hg : g.length = m.nxyz) {v : List ℚ} (hv : m.nxyz ≤ v.length) (F : σ → ℚ → σ)
    (w : Nat → Int → Option σ) :
    ∃ w', updateCells m.ranges (fun _ j x => do
        let p ← primaryValue m v j
        Out.ok (F x p)) w = .ok w' ∧
      (∀ n j i p, Owns m.ranges n j → Primary g j i → v[i]? = some p →
        w' n j = (w n j).map (fun x => F x p)) ∧
      (∀ n j, ¬ Owns m.ranges n j → w' n j = w n j) := by
  have hP : ∀ j : Int, ∃ p : ℚ, ∀ n, Owns m.ranges n j → primaryValue m v j = .ok p := by
    intro j
    by_cases h : ∃ n, Owns m.ranges n j
    · obtain ⟨n, ho⟩ := h
      obtain ⟨i, x, _, _, h3⟩ := primaryValue_ok hcon hg hv ho
      exact ⟨x, fun _ _ => h3⟩
    · exact ⟨0, fun n ho => absurd ⟨n, ho⟩ h⟩
  obtain ⟨P, hP⟩ := Classical.axiomOfChoice hP
  obtain ⟨w', h1, h2, h3⟩ := updateCells_spec m.ranges (fun _ j x => do
        let p ← primaryValue m v j
        Out.ok (F x p)) w (fun _ j x => F x (P j)) (fun n j x ho _ => by
          simp only [hP j n ho, Out.ok_bind])
  refine ⟨w', h1, fun n j i p ho hi hp => ?_, h3⟩
  obtain ⟨i', x, g1, g2, g3⟩ := primaryValue_ok hcon hg hv ho
  have : i' = i := g1.unique hi
  subst this
  rw [h2 n j ho]
  have e := hP j n ho
  rw [g3] at e
  rw [g2] at hp
  simp only [Option.some.injEq, Out.ok.injEq] at hp e
  rw [← e, hp]

/-- What an accepted vector does to the cells of the workers. -/
structure Distributed (g : List Int) (a : Arr) (v : List ℚ) (s s' : RM) : Prop where
  sol : ∀ n j i p, Owns s.map.ranges n j → Primary g j i → v[i]? = some p →
    s'.sol n j = (s.sol n j).map (fun x => match a with
      | .pressure => { x with patm := p }
      | .temperature => { x with tc := p }
      | _ => x)
  gas : ∀ n j i p, Owns s.map.ranges n j → Primary g j i → v[i]? = some p →
    s'.gas n j = (s.gas n j).map (fun x =>
      if a = .pressure ∧ x.type = .pressure then { x with totalP := p } else x)
  other : ∀ n j, ¬ Owns s.map.ranges n j → s'.sol n j = s.sol n j ∧ s'.gas n j = s.gas n j

theorem distribute_ok {g : List Int} {s : RM} (hcon : Consistent g s.map)
    (hg : g.length = s.map.nxyz) (a : Arr) {v : List ℚ} (hv : s.map.nxyz ≤ v.length) :
    ∃ s', distribute s a v = .ok s' ∧ s' = { s with sol := s'.sol, gas := s'.gas } ∧
      Distributed g a v s s' := by
  have hid : ∀ a : Arr, a ≠ .pressure → a ≠ .temperature → distribute s a v = .ok s →
      ∃ s', distribute s a v = .ok s' ∧ s' = { s with sol := s'.sol, gas := s'.gas } ∧
      Distributed g a v s s' := by
    intro a h1 h2 h
    refine ⟨s, h, rfl, ⟨fun n j i p _ _ _ => ?_, fun n j i p _ _ _ => ?_, fun _ _ _ => ⟨rfl, rfl⟩⟩⟩
    · cases a <;> simp at h1 h2 ⊢
    · simp [h1]
  cases a with
  | pressure =>
    obtain ⟨w1, a1, a2, a3⟩ := updateCells_primary hcon hg hv
      (fun (x : Soln) p => { x with patm := p }) s.sol
    obtain ⟨w2, b1, b2, b3⟩ := updateCells_primary hcon hg hv
      (fun (x : GasPhase) p => if x.type = .pressure then { x with totalP := p } else x) s.gas
    refine ⟨{ s with sol := w1, gas := w2 }, ?_, rfl, ⟨fun n j i p ho hi hp => ?_,
      fun n j i p ho hi hp => ?_, fun n j h => ⟨a3 n j h, b3 n j h⟩⟩⟩
    · simp only [distribute, pressureSol, pressureGas, a1, b1, Out.ok_bind]
    · exact a2 n j i p ho hi hp
    · simp only [true_and]; exact b2 n j i p ho hi hp
  | temperature =>
    obtain ⟨w1, a1, a2, a3⟩ := updateCells_primary hcon hg hv
      (fun (x : Soln) p => { x with tc := p }) s.sol
    refine ⟨{ s with sol := w1 }, ?_, rfl, ⟨fun n j i p ho hi hp => ?_,
      fun n j i p ho hi hp => ?_, fun n j h => ⟨a3 n j h, rfl⟩⟩⟩
    · simp only [distribute, temperatureSol, a1, Out.ok_bind]
    · exact a2 n j i p ho hi hp
    · simp
  | _ => exact hid _ (by simp) (by simp) rfl

/-- A refused grid vector. -/
theorem setGrid_bad (s : RM) (a : Arr) (v : List ℚ) (hv : v.length < s.map.nxyz) :
    ∃ s' r, setGrid s a v = .ok (s', r) ∧ SameSettings s s' ∧ Refused s.mode .fail r := by
  let t : RM := { s.clear with
    err := say (decodeError s.clear.err .invalidArg)
      ("Wrong number of elements in vector argument for " ++ a.method) }
  have e : setGeneric s.clear a v = (t, .fail) := if_pos hv
  refine ⟨(t.finish .fail ("PhreeqcRM::" ++ a.method)).1,
    (t.finish .fail ("PhreeqcRM::" ++ a.method)).2, ?_, rfl, finish_bad t _ _ (by simp)⟩
  rw [setGrid, e]
  rfl

/-- An accepted grid vector. -/
theorem setGrid_good {g : List Int} {s : RM} (hcon : Consistent g s.map)
    (hg : g.length = s.map.nxyz) (a : Arr) {v : List ℚ} (hv : s.map.nxyz ≤ v.length) :
    ∃ s', setGrid s a v = .ok (s', .value .ok) ∧ s'.arr a = v ∧ (∀ b, b ≠ a → s'.arr b = s.arr b) ∧
      s' = { s with err := [], arr := s'.arr, sol := s'.sol, gas := s'.gas } ∧
      Distributed g a v s s' := by
  have e : setGeneric s.clear a v = ({ s.clear with arr := fun b => if b = a then v else s.arr b },
      .ok) := if_neg (by simpa [RM.clear] using hv)
  obtain ⟨s', h1, h2, h3⟩ := distribute_ok
    (s := { s.clear with arr := fun b => if b = a then v else s.arr b }) hcon hg a hv
  refine ⟨s', ?_, ?_, fun b hb => ?_, ?_, h3.sol, h3.gas, h3.other⟩
  · rw [setGrid, e]
    simp only [if_true, h1, Out.ok_bind, finish_ok]
  · rw [h2]; simp
  · rw [h2]; simp [hb]
  · have : s'.arr = fun b => if b = a then v else s.arr b := by rw [h2]
    rw [this]
    exact h2

theorem unitTest_iff (openmp : Bool) (n : Nat) (k : UnitOf) (u : Int) :
    unitTest k u = true ↔ Good openmp n (.units k u) := by
  cases k <;> simp [unitTest, Good] <;> omega

end Verif.Setters
