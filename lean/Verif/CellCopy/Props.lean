import Verif.CellCopy.Lemmas

/-! # C119: `InitialPhreeqcCell2Module` -/

namespace Verif.CellCopy

open Verif.OMap Verif.NameDouble Verif.Store Verif.Mapping Verif.Grid Verif.Transfer Verif.Mixing
  Verif.Ranges Verif.InitCond

section

variable {F : Name → Name} {T : GasType} {g : List Int} {s : MapState} {st : Settings} {pb : Bin Entity}

/-- C119, no such cell. A number that names no cell is refused with IRM_INVALIDARG, whatever the list,
and nothing is changed. -/
theorem cell_refused (keys : List Int) (hk : KeysOf pb keys) (n : Int) (h : ¬ ∃ m, Chosen pb n m)
    (cells : List Int) (w : Nat → Bin Entity) :
    cellToModule real keys pb st s n cells w = .ok (.invalidArg, w) := by
  unfold cellToModule
  rw [if_pos]
  by_contra hn
  exact h ⟨_, (resolve_chosen hk n _).mp ⟨rfl, by omega⟩⟩

/-- C119. `InitialPhreeqcCell2Module` with grid numbers in range: every reaction cell whose grid cell
is listed gets, in its worker, the solution of cell `m` filled up to the water volume of the grid cell
and every other reactant of cell `m` scaled as its units say; cells that are not listed keep
everything. The full statement asks for `content' c k = none` where `pb k m = none`: the reactants the
cell had before should be removed. The code keeps them (`cell_removed_violated`), which is the last
clause. -/
theorem cell_copied_partial (R : Ready F T g s st pb) (keys : List Int) (hk : KeysOf pb keys) (n m : Int)
    (hc : Chosen pb n m) (cells : List Int) (hcells : ∀ x ∈ cells, 0 ≤ x ∧ x < s.nxyz)
    (w : Nat → Bin Entity) :
    ∃ w', cellToModule real keys pb st s n cells w = .ok (.ok, w') ∧
      ∀ content, HeldByOwners CellKind s.ranges content w → ∃ content',
        HeldByOwners CellKind s.ranges content' w' ∧
        (∀ (c : Nat), c < s.count → (∀ j : Nat, primary s c = some j → (j : Int) ∉ cells) →
          ∀ k, content' c k = content c k) ∧
        (∀ (c j : Nat), c < s.count → primary s c = some j → (j : Int) ∈ cells →
          CopiedAt pb m st j (content' c) ∧
          ∀ k, CellKind k → pb k m = none → content' c k = content c k) := by
  obtain ⟨hres, hm0⟩ := (resolve_chosen hk n m).mpr hc
  obtain ⟨r, e, hl, h1, h2⟩ := mapM_idx s.forward cells (by rw [R.con.fwd_len]; exact hcells)
  obtain ⟨w', e', h⟩ := loop_spec R hc.2.1 (cells.zip r) h1 w
  refine ⟨w', ?_, ?_⟩
  · unfold cellToModule
    rw [hres, if_neg (by omega), e, Out.ok_bind, e', Out.ok_bind]
  · intro content hh
    obtain ⟨content', k1, k2, k3, k4⟩ := h content hh
    refine ⟨content', k1, ?_, ?_⟩
    · intro c _ hno k
      refine k2 c k ?_
      intro q hq hqc
      obtain ⟨j, hj1, hj2⟩ := h1 q hq
      rw [hqc, forward_active R] at hj2
      refine hno j hj2 ?_
      rw [← hj1]
      exact (List.of_mem_zip (a := q.1) (b := q.2) hq).1
    · intro c j hcc hp hj
      exact ⟨k4 j c (h2 j hj _ ((forward_active R).mpr hp)) hcc, fun k hk' hn => k3 c k hk' hn⟩

end

/-! ## Concrete cases -/

theorem keys12 : KeysOf (stockOf kin12) [1, 2] := by
  refine ⟨by decide, fun n => ?_⟩
  simp only [stockOf, true_and, reduceCtorEq, false_and, if_false, List.mem_cons, List.not_mem_nil,
    or_false]
  by_cases h1 : n = 1
  · simp [h1]
  · by_cases h2 : n = 2
    · simp [h2]
    · simp [h1, h2]

/-- The premises are met: solution and kinetics 1, or with a negative number solution and kinetics 2,
copied to both cells of two workers. -/
example (F : Name → Name) (T : GasType) :
    Ready F T [0, 1] twoMap caseSettings (stockOf kin12) ∧ KeysOf (stockOf kin12) [1, 2] ∧
    Chosen (stockOf kin12) 1 1 ∧ Chosen (stockOf kin12) (-1) 2 ∧
    (¬ ∃ m, Chosen (stockOf kin12) 7 m) ∧
    HeldByOwners CellKind twoMap.ranges (fun _ _ => (none : Option Entity)) (fun _ => Store.empty) := by
  refine ⟨⟨twoMap_consistent, rfl, rfl, rfl, rfl, by decide +kernel, by decide +kernel, by decide +kernel,
    stockOf_valid F T, fun _ => Nat.zero_le 2⟩, keys12, ⟨by decide, by decide, fun _ => rfl, by omega⟩,
    ⟨by decide, by decide, by omega, ?_⟩, ?_, fun _ _ _ _ => ⟨fun _ => rfl, fun _ => rfl⟩⟩
  · intro _ x hx
    have := (keys12.2 x).mpr hx
    simp only [List.mem_cons, List.not_mem_nil, or_false] at this
    omega
  · rintro ⟨m, _, h2, h3, _⟩
    rw [h3 (by omega)] at h2
    exact h2 rfl

/-- Reading a result. -/
theorem of_ok {o : Out (IRM × (Nat → Bin Entity))} {P : IRM × (Nat → Bin Entity) → Bool}
    (h : (match o with | .ok r => P r | _ => false) = true) : ∃ r, o = .ok r ∧ P r = true := by
  cases o with
  | ok r => exact ⟨r, rfl, h⟩
  | throw => cases h
  | ub => cases h

/-- What such a call gives in cell 1: a quarter of a litre of solution 2 and twice kinetics 2. -/
example : ∃ r, cellToModule real [1, 2] (stockOf kin12) caseSettings twoMap (-1) [1]
      (fun _ => Store.empty) = .ok r ∧
    decide (r.1 = .ok ∧ r.2 0 .solution 0 = none ∧
      (r.2 1 .solution 1).elim 0 (memberOf Solution.solnVol) = 1 / 4 ∧
      (r.2 1 .solution 1).elim 0 (memberOf (fun s => val s.totals "Na".toList)) = 3 / 4 ∧
      (r.2 1 .kinetics 1).elim 0 (amountOf (.kin "Quartz".toList) .kinetics) = 60) = true :=
  of_ok (by decide +kernel)

/-- Worker 0 holds a solid solution in cell 0. -/
def oldSolid : Nat → Bin Entity := fun i k n =>
  if i = 0 ∧ k = .ssAssemblage ∧ n = 0 then some solid else none

/-- C119, the code. "All reactants for each cell in the list are removed before the cell definition is
copied": cell 1 of the InitialPhreeqc instance has no solid solution, and reaction cell 0 keeps the one
it had. -/
theorem cell_removed_violated :
    stockOf kin12 .ssAssemblage 1 = none ∧
    ∃ r, cellToModule real [1, 2] (stockOf kin12) caseSettings twoMap 1 [0] oldSolid = .ok r ∧
      decide (r.1 = .ok ∧ (r.2 0 .solution 0).isSome ∧ r.2 0 .ssAssemblage 0 = some solid) = true :=
  ⟨by decide +kernel, of_ok (by decide +kernel)⟩

/-- Solutions 1 and 2 and MIX 1 and 5. -/
def mixStock : Bin Entity := fun k n =>
  if k = .mix ∧ (n = 1 ∨ n = 5) then some (water 0) else stockOf kin12 k n

/-- C119, the code. "If MIX n exists, it is used for the definition of the solution": with MIX 1
(without sodium) the cell gets half a litre of solution 1; MIX 5 without solution 5 is refused; a negative number
stands for solution 2 although MIX 5 has a larger number. -/
theorem cell_mix_violated :
    (∃ r, cellToModule real [1, 2] mixStock caseSettings twoMap 1 [0] (fun _ => Store.empty) = .ok r ∧
      decide (r.1 = .ok ∧ (r.2 0 .solution 0).elim 0 (memberOf (fun s => val s.totals "Na".toList)) = 1 / 2)
        = true) ∧
    (∃ r, cellToModule real [1, 2] mixStock caseSettings twoMap 5 [0] (fun _ => Store.empty) = .ok r ∧
      decide (r.1 = .invalidArg) = true) ∧
    (∃ r, cellToModule real [1, 2] mixStock caseSettings twoMap (-1) [0] (fun _ => Store.empty) = .ok r ∧
      decide (r.1 = .ok ∧ (r.2 0 .solution 0).elim 0 (memberOf (fun s => val s.totals "Na".toList)) = 3 / 2)
        = true) :=
  ⟨of_ok (by decide +kernel), of_ok (by decide +kernel), of_ok (by decide +kernel)⟩

/-- C119, the code. A grid number outside the grid is not refused: the mapping is read at that place. -/
theorem cell_range_violated :
    (match cellToModule real [1, 2] (stockOf kin12) caseSettings twoMap 1 [2] (fun _ => Store.empty) with
      | .ub => true | _ => false) = true := by decide +kernel

/-- Both grid cells belong to reaction cell 0. -/
def sharedMap : MapState := ⟨2, 1, 1, [0, -1], [[0, 1]], [(0, 0)]⟩

/-- C119, the code. A listed grid cell that shares its reaction cell with an earlier grid cell is passed
over without a message. -/
theorem cell_shared_violated :
    ∃ r, cellToModule real [1, 2] (stockOf kin12) caseSettings sharedMap 1 [1] (fun _ => Store.empty) = .ok r ∧
      decide (r.1 = .ok ∧ r.2 0 .solution 0 = none) = true :=
  of_ok (by decide +kernel)

end Verif.CellCopy
