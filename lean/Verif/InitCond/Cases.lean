import Verif.InitCond.OneKind

/-!
# C32: what the code does not do, and concrete cases for the premises
-/

namespace Verif.InitCond

open Verif.OMap Verif.NameDouble Verif.Store Verif.Mapping Verif.Grid Verif.Transfer Verif.Mixing
  Verif.Ranges

/-- Two grid cells, two workers. -/
def twoMap : MapState := ⟨2, 2, 2, [0, 1], [[0], [1]], [(0, 0), (1, 1)]⟩

theorem twoMap_consistent : Consistent [0, 1] twoMap :=
  (createMapping_consistent ⟨2, 2, 2, [], [], []⟩ twoMap [0, 1] (by decide)).1

/-- Two grid cells, one worker. -/
def oneMap : MapState := ⟨2, 1, 2, [0, 1], [[0], [1]], [(0, 1)]⟩

def caseSettings : Settings := ⟨[1 / 2, 1 / 4], [1, 1 / 2], [1, 2], fun _ => 0⟩

/-- A litre of water with some sodium. -/
def water (na : ℚ) : Entity :=
  .sol { Solution.zero with massWater := 1, solnVol := 1, totals := [("Na".toList, na)] }

/-- A kinetic reactant. -/
def rate (m : ℚ) : Entity := .rx (.kin ⟨[⟨"Quartz".toList, m, m, 0⟩], [1]⟩)

/-- A solid-solution assemblage. -/
def solid : Entity := .rx (.ss [("Carbonate".toList, ⟨"Carbonate".toList, []⟩)])

/-- Reading a result. -/
theorem of_ok {o : Out (Result Entity)} {P : Result Entity → Bool}
    (h : (match o with | .ok r => P r | _ => false) = true) : ∃ r, o = .ok r ∧ P r = true := by
  cases o with
  | ok r => exact ⟨r, rfl, h⟩
  | throw => cases h
  | ub => cases h

/-- Solutions 1 and 2; kinetics as given; solid solution 3. -/
def stockOf (kin : Int → Option Entity) : Bin Entity := fun k n =>
  if k = .solution ∧ n = 1 then some (water 1)
  else if k = .solution ∧ n = 2 then some (water 3)
  else if k = .kinetics then kin n
  else if k = .ssAssemblage ∧ n = 3 then some solid
  else none

/-- Kinetics 1 and 2. -/
def kin12 (n : Int) : Option Entity := if n = 1 then some (rate 10) else if n = 2 then some (rate 30) else none

/-- Arrays for two cells with a number for solutions and numbers for kinetics. -/
def caseArgs (sols kins kins2 : List Int) (f : ℚ) : Args :=
  ⟨sols ++ List.replicate 10 (-1) ++ kins, List.replicate 12 (-1) ++ kins2, List.replicate 14 f⟩

theorem stockOf_valid (F : Name → Name) (T : GasType) : Stock F T (stockOf kin12) := by
  constructor
  · intro n e h
    simp only [stockOf, reduceCtorEq, false_and, if_false, true_and] at h
    split at h
    · cases h
      exact ⟨_, rfl, by decide +kernel, by decide +kernel, ⟨by simp [Sorted], List.Pairwise.nil, List.Pairwise.nil⟩⟩
    · split at h
      · cases h
        exact ⟨_, rfl, by decide +kernel, by decide +kernel, ⟨by simp [Sorted], List.Pairwise.nil, List.Pairwise.nil⟩⟩
      · cases h
  · intro k n e hk _ h
    simp only [stockOf, hk, false_and, if_false] at h
    split at h
    · rename_i hkin
      subst hkin
      unfold kin12 at h
      split at h
      · cases h
        exact ⟨_, rfl, by intro c hc; simp only [List.mem_singleton] at hc; subst hc; decide, trivial⟩
      · split at h
        · cases h
          exact ⟨_, rfl, by intro c hc; simp only [List.mem_singleton] at hc; subst hc; decide, trivial⟩
        · cases h
    · split at h
      · rename_i hss
        obtain ⟨rfl, rfl⟩ := hss
        cases h
        exact ⟨_, rfl, ⟨by simp [Sorted], by simp, by simp⟩, trivial⟩
      · cases h

theorem caseReady (sols kins kins2 : List Int) (h1 : sols.length = 2) (h2 : kins.length = 2)
    (h3 : kins2.length = 2) (f : ℚ) (hf : 0 ≤ f ∧ f ≤ 1) (F : Name → Name) (T : GasType) :
    Ready F T [0, 1] twoMap caseSettings (caseArgs sols kins kins2 f) (stockOf kin12) where
  con := twoMap_consistent
  len := rfl
  sizes := ⟨by simp [caseArgs, h1, h2, twoMap], by simp [caseArgs, h3, twoMap],
    by simp [caseArgs, twoMap], rfl, rfl, rfl⟩
  stock := stockOf_valid F T
  units := fun _ => Nat.zero_le 2
  fracs := by
    intro x hx
    rw [(List.mem_replicate.mp hx).2]
    exact hf
  sat := by decide +kernel

/-- The premises of `initial_fails_partial`, `initial_amounts` and `one_kind` are met:
mixtures of solutions 1 and 2, kinetics 1, two workers, and workers without cells. -/
example : Ready (fun _ => []) .pressure [0, 1] twoMap caseSettings
      (caseArgs [1, 2] [1, -1] [-1, -1] (1 / 4)) (stockOf kin12) ∧
    KineticsSecond twoMap (caseArgs [1, 2] [1, -1] [-1, -1] (1 / 4)) (stockOf kin12) ∧
    (∀ c, c < twoMap.count → Sound twoMap caseSettings c) ∧
    HeldByOwners CellKind twoMap.ranges (fun _ _ => (none : Option Entity)) (fun _ => Store.empty) := by
  refine ⟨caseReady _ _ _ rfl rfl rfl _ (by decide +kernel) _ _, ?_, ?_, fun _ _ _ _ => ⟨fun _ => rfl, fun _ => rfl⟩⟩
  · intro c j n hc hj he hn
    have : c = 0 ∨ c = 1 := by change c < 2 at hc; omega
    rcases this with rfl | rfl
    · cases hj; cases he; omega
    · cases hj; cases he; omega
  · intro c hc j hj
    have : c = 0 ∨ c = 1 := by change c < 2 at hc; omega
    rcases this with rfl | rfl <;> cases hj <;> exact ⟨fun x hx => by cases hx; decide +kernel, fun x hx => by cases hx; decide +kernel⟩

/-- What such a call gives: half of each solution by volume, in the worker that owns the cell. -/
example : ∃ r, initialPhreeqc2Module real (stockOf kin12) caseSettings twoMap
      ⟨[1, 1] ++ List.replicate 12 (-1), [2, 2] ++ List.replicate 12 (-1), List.replicate 14 (1 / 2)⟩
      (fun _ => Store.empty) = .ok r ∧
    decide (r.code = .ok ∧ (r.w 1 .solution 1).isSome ∧ (r.w 0 .solution 1) = none ∧
      (r.w 1 .solution 1).elim 0 (memberOf Solution.solnVol) = 2 * (1 / 4) * (1 / 2) ∧
      (r.w 1 .solution 1).elim 0 (memberOf (fun s => val s.totals "Na".toList)) = 1 / 2) = true :=
  of_ok (by decide +kernel)

/-- C32, the code. Kinetics 1 and 2 are both defined, yet the call fails: the second number is
looked up among the solid solutions. With solid solution 3 and no kinetics 3 the call
succeeds although kinetics 3 is undefined. -/
theorem initial_fails_violated :
    (∃ r, initialPhreeqc2Module real (stockOf kin12) caseSettings twoMap
        (caseArgs [1, 1] [1, 1] [2, 2] (1 / 2)) (fun _ => Store.empty) = .ok r ∧
      decide (r.code = .fail ∧ r.errs = [(.kinetics, 2), (.kinetics, 2)] ∧
        (stockOf kin12 .kinetics 2).isSome) = true) ∧
    (∃ r, initialPhreeqc2Module real (stockOf kin12) caseSettings twoMap
        (caseArgs [1, 1] [1, 1] [3, 3] (1 / 2)) (fun _ => Store.empty) = .ok r ∧
      decide (r.code = .ok ∧ stockOf kin12 .kinetics 3 = none) = true) :=
  ⟨of_ok (by decide +kernel), of_ok (by decide +kernel)⟩

/-- C32, the code. A failing call is not undone: cell 1 refers to the undefined solution 9,
the call fails, and cell 0 has been changed. -/
theorem initial_atomic_violated :
    ∃ r, initialPhreeqc2Module real (stockOf kin12) caseSettings oneMap
        (caseArgs [1, 9] [-1, -1] [-1, -1] 1) (fun _ => Store.empty) = .ok r ∧
      decide (r.code = .fail ∧ (r.w 0 .solution 0).isSome) = true :=
  of_ok (by decide +kernel)

/-- C32, the code. What a failing call left in the first worker comes back later: cell 1 belongs
to worker 1; the first call fails because of cell 0; a second call, which sets nothing,
succeeds and gives cell 1 the solution of the failed call. -/
theorem initial_stale_violated :
    ∃ r, initialPhreeqc2Module real (stockOf kin12) caseSettings twoMap
        (caseArgs [9, 1] [-1, -1] [-1, -1] 1) (fun _ => Store.empty) = .ok r ∧
      decide (r.code = .fail ∧ r.w 1 .solution 1 = none) = true ∧
      ∃ r', initialPhreeqc2Module real (stockOf kin12) caseSettings twoMap
          (caseArgs [-1, -1] [-1, -1] [-1, -1] 1) r.w = .ok r' ∧
        decide (r'.code = .ok ∧ (r'.w 1 .solution 1).isSome) = true := by
  have h : ∃ r, initialPhreeqc2Module real (stockOf kin12) caseSettings twoMap
        (caseArgs [9, 1] [-1, -1] [-1, -1] 1) (fun _ => Store.empty) = .ok r ∧
      (decide (r.code = .fail ∧ r.w 1 .solution 1 = none) &&
        (match initialPhreeqc2Module real (stockOf kin12) caseSettings twoMap
          (caseArgs [-1, -1] [-1, -1] [-1, -1] 1) r.w with
        | .ok r' => decide (r'.code = .ok ∧ (r'.w 1 .solution 1).isSome)
        | _ => false)) = true := of_ok (by decide +kernel)
  obtain ⟨r, h1, h2⟩ := h
  rw [Bool.and_eq_true] at h2
  exact ⟨r, h1, h2.1, of_ok h2.2⟩

/-- Second numbers and fractions may be left out according to the check of the sizes, but the
empty vectors are then read. -/
theorem initial_empty_violated :
    (match initialPhreeqc2Module real (stockOf kin12) caseSettings twoMap
        ⟨[1, 1] ++ List.replicate 12 (-1), [], []⟩ (fun _ => Store.empty) with
      | .ub => true | _ => false) = true := by decide +kernel

end Verif.InitCond
