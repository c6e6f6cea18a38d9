import Verif.Gas.Volume
import Verif.State.Props

/-!
# Gas phases: what the code does not do, and concrete cases for the premises
-/

namespace Verif.Gas

open Verif.Mapping Verif.Grid Verif.Transfer Verif.Ranges Verif.OMap Verif.NameDouble Verif.Mixing
open Verif.State Verif.Store
open Verif.Conc (Primary)

/-- Reading a result that contains functions. -/
theorem of_ok {α : Type} {o : Out α} {P : α → Bool}
    (h : (match o with | .ok r => P r | _ => false) = true) : ∃ r, o = .ok r ∧ P r = true := by
  cases o with
  | ok r => exact ⟨r, rfl, h⟩
  | throw => cases h
  | ub => cases h

/-- Four grid cells: two share a reaction cell, one is inactive; one worker. -/
def caseGrid : List Int := [0, 0, -1, 1]
def caseMap : MapState := ⟨4, 1, 2, [0, -1, -1, 1], [[0, 1], [3]], [(0, 1)]⟩

theorem caseMap_consistent : Consistent caseGrid caseMap :=
  (createMapping_consistent ⟨4, 1, 4, [], [], []⟩ caseMap caseGrid (by decide)).1

def co2 : Name := "CO2(g)".toList
def n2 : Name := "N2(g)".toList
def ch4 : Name := "CH4(g)".toList

theorem names_distinct : DistinctNames [co2, n2] := by
  simp only [DistinctNames, List.pairwise_cons, List.mem_singleton, forall_eq]
  exact ⟨by decide, by simp, List.Pairwise.nil⟩

/-- A gas phase in reaction cell 0 with a listed and an unlisted component. -/
def caseGas : Nat → GasMap := fun n =>
  if n = 0 then [(0, ⟨0, { newPhase with comps := [newComp ch4 5, newComp co2 1] }⟩)] else []

theorem caseGas_find {n : Nat} {j : Int} {e : Ent GasPhase} (h : find (caseGas n) j = some e) :
    n = 0 ∧ j = 0 ∧ e = ⟨0, { newPhase with comps := [newComp ch4 5, newComp co2 1] }⟩ := by
  unfold caseGas at h
  split at h
  · simp only [find] at h
    split at h
    · cases h; rename_i h1 h2; exact ⟨h1, h2, rfl⟩
    · cases h
  · cases h

theorem caseGas_proper : Proper caseGas := by
  intro n j e h
  obtain ⟨_, _, rfl⟩ := caseGas_find h
  simp only [DistinctNames, newComp, List.map_cons, List.map_nil, List.pairwise_cons,
    List.mem_singleton, forall_eq]
  exact ⟨by decide, by simp, List.Pairwise.nil⟩

/-- The premises of `set_get_partial` and what it says for one array: reaction cell 0 loses CO2
and gets N2, reaction cell 1 gets a new gas phase. -/
example : ∃ w' c, setGasCompMoles caseMap [co2, n2] [-1, 9, 9, 4, 2, 9, 9, -1] caseGas = .ok w' ∧
    getGasComp GasComp.moles caseMap [co2, n2] w' = .ok c ∧
    c = [-1, -1, 10 ^ 30, 4, 2, 2, 10 ^ 30, -1] := by
  obtain ⟨w', c, h1, h2, -⟩ := set_get_partial caseMap_consistent rfl names_distinct
    (v := [-1, 9, 9, 4, 2, 9, 9, -1]) (by decide) caseGas_proper
  refine ⟨w', c, h1, h2, ?_⟩
  obtain ⟨c', h3, h4⟩ := of_ok (o := (do
      let w ← setGasCompMoles caseMap [co2, n2] [-1, 9, 9, 4, 2, 9, 9, -1] caseGas
      getGasComp GasComp.moles caseMap [co2, n2] w))
    (P := fun c => c = [-1, -1, 10 ^ 30, 4, 2, 2, 10 ^ 30, -1]) (by decide +kernel)
  rw [h1, Out.ok_bind, h2] at h3
  cases h3
  simpa using h4

/-- The premises of `get_set_partial`. -/
example : (∀ n j e, find (caseGas n) j = some e → ∀ c ∈ e.val.comps, 0 ≤ c.moles) ∧
    (∀ n j e, find (caseGas n) j = some e → e.val.comps ≠ []) := by
  refine ⟨fun n j e h c hc => ?_, fun n j e h => ?_⟩
  · obtain ⟨_, _, rfl⟩ := caseGas_find h
    simp only [List.mem_cons, List.not_mem_nil, or_false] at hc
    rcases hc with rfl | rfl <;> decide +kernel
  · obtain ⟨_, _, rfl⟩ := caseGas_find h; simp

/-! ## C33: a component listed twice -/

/-- C33 for all gas phases. -/
def SetGet : Prop :=
  ∀ (g : List Int) (s : MapState) (names : List Name) (v : List ℚ) (w w' : Nat → GasMap)
    (c : List ℚ), Consistent g s → g.length = s.nxyz → DistinctNames names →
    s.nxyz * names.length ≤ v.length → setGasCompMoles s names v w = .ok w' →
    getGasComp GasComp.moles s names w' = .ok c →
    ∀ (i k : Nat) (x : Int) (y : ℚ), k < names.length → g[i]? = some x → 0 ≤ x →
      Given g s.nxyz v x k y → c[k * s.nxyz + i]? = some (if 0 ≤ y then y else -1)

/-- `GAS_PHASE; CO2(g) ..; co2(g) ..`: deleting CO2(g) uncovers co2(g). -/
theorem set_get_violated : ¬ SetGet := by
  intro h
  obtain ⟨⟨w', c⟩, h1, h2⟩ := of_ok (o := (do
      let w ← setGasCompMoles caseMap [co2] [-1, -1, -1, -1] (fun n =>
        if n = 0 then [(0, ⟨0, { newPhase with comps := [newComp co2 1,
          newComp "co2(g)".toList 2] }⟩)] else [])
      let c ← getGasComp GasComp.moles caseMap [co2] w
      .ok (w, c)))
    (P := fun r => r.2 = [2, 2, 10 ^ 30, -1]) (by decide +kernel)
  cases h3 : setGasCompMoles caseMap [co2] [-1, -1, -1, -1] (fun n =>
        if n = 0 then [(0, ⟨0, { newPhase with comps := [newComp co2 1,
          newComp "co2(g)".toList 2] }⟩)] else []) with
  | ok w =>
    rw [h3, Out.ok_bind] at h1
    cases h4 : getGasComp GasComp.moles caseMap [co2] w with
    | ok c' =>
      rw [h4, Out.ok_bind] at h1
      cases h1
      have := h caseGrid caseMap [co2] _ _ _ _ caseMap_consistent rfl
        (by simp [DistinctNames]) (by decide) h3 h4 0 0 0 (-1) (by decide) rfl (by decide)
        ⟨0, ⟨rfl, fun _ _ => Nat.zero_le _⟩, rfl⟩
      simp only [decide_eq_true_eq] at h2
      rw [h2] at this
      revert this
      decide +kernel
    | throw => rw [h4] at h1; cases h1
    | ub => rw [h4] at h1; cases h1
  | throw => rw [h3] at h1; cases h1
  | ub => rw [h3] at h1; cases h1

/-! ## C80: a gas phase without components -/

/-- C80 for all gas phases. -/
def GetSet : Prop :=
  ∀ (g : List Int) (s : MapState) (names : List Name) (w w' : Nat → GasMap) (c : List ℚ),
    Consistent g s → g.length = s.nxyz → DistinctNames names → Proper w →
    getGasComp GasComp.moles s names w = .ok c → setGasCompMoles s names c w = .ok w' →
    ∀ n j, find (w' n) j = find (w n) j

/-- A gas phase made by `SetGasPhaseVolume` has no components yet; writing back the moles that
`GetGasCompMoles` returns erases it, and with it the volume. -/
theorem get_set_violated : ¬ GetSet := by
  intro h
  obtain ⟨w, h1, h2⟩ := of_ok (o := setGasPhaseVolume caseMap [3, 3, 3, 3] (fun _ => []))
    (P := fun w => w 0 = [(0, ⟨1, { newPhase with volume := 3, type := .volume }⟩),
      (1, ⟨1, { newPhase with volume := 3, type := .volume }⟩)]) (by decide +kernel)
  simp only [decide_eq_true_eq] at h2
  obtain ⟨_, _, a1, _, _, _, a2⟩ := set_get_volume caseMap_consistent rfl (v := [3, 3, 3, 3])
    (by decide) (fun _ => [])
  rw [h1] at a1
  cases a1
  have hp : Proper w := by
    intro n j e he
    by_cases hn : n = 0
    · subst hn
      rw [h2] at he
      have := mem_of_find he
      simp only [List.mem_cons, List.not_mem_nil, or_false] at this
      rcases this with h | h <;>
      · simp only [Prod.mk.injEq] at h
        rw [h.2]
        simp [newPhase, DistinctNames]
    · have : ¬ Owns caseMap.ranges n j := by
        rintro ⟨r, hr, _⟩
        have := (List.getElem?_eq_some_iff.mp hr).1
        simp [caseMap] at this
        exact hn this
      rw [a2 n j this] at he
      cases he
  obtain ⟨w', c, b1, b2, _⟩ : ∃ w' c, getGasComp GasComp.moles caseMap [co2] w = .ok c ∧
      setGasCompMoles caseMap [co2] c w = .ok w' ∧ True := by
    obtain ⟨c, c1, c2, _⟩ := getGasComp_spec caseMap_consistent rfl GasComp.moles [co2] w
    obtain ⟨w', d1, _⟩ := set_spec caseMap_consistent rfl (names := [co2]) (by simp [DistinctNames])
      (v := c) (by omega) hp
    exact ⟨w', c, c1, d1, trivial⟩
  have h5 := h caseGrid caseMap [co2] w w' c caseMap_consistent rfl (by simp [DistinctNames]) hp
    b1 b2 0 0
  obtain ⟨w'', c'', e1, e2, _, _, _, e3, _⟩ := set_get_partial caseMap_consistent rfl (names := [co2])
    (by simp [DistinctNames]) (v := c) (by
      obtain ⟨c', c1, c2, _⟩ := getGasComp_spec caseMap_consistent rfl GasComp.moles [co2] w
      rw [b1] at c1; cases c1; omega) hp
  rw [b2] at e1
  cases e1
  have ho : Owns caseMap.ranges 0 0 := ⟨(0, 1), rfl, by decide⟩
  rw [h2] at h5
  rcases (e3 0 0 ho).mp ⟨_, h5⟩ with ⟨k, y, hk, hy, hy0⟩ | ⟨e, he, d, hd, _⟩
  · obtain ⟨c', c1, c2, c3⟩ := getGasComp_spec caseMap_consistent rfl GasComp.moles [co2] w
    rw [b1] at c1
    cases c1
    have hk0 : k = 0 := by simp at hk; exact hk
    subst hk0
    have := (c3 0 0 0 co2 rfl rfl).2 0 ho
    obtain ⟨p, hp', hy'⟩ := hy
    have hp0 : p = 0 := Verif.Conc.Primary.unique hp' ⟨rfl, fun _ _ => Nat.zero_le _⟩
    subst hp0
    rw [hy', h2] at this
    simp only [find, reported, newPhase, getComp, if_true, Option.some.injEq] at this
    rw [this] at hy0
    norm_num at hy0
  · rw [h2] at he
    simp only [find, if_true, Option.some.injEq] at he
    subst he
    simp [newPhase] at hd

/-! ## C81: gas phases and saved states -/

/-- The gas phases of the workers. -/
def gasOf (s : SState GasPhase) : Nat → GasMap := fun n =>
  match s.workers[n]? with
  | some w => w.rx .gasPhase
  | none => []

/-- The workers with other gas phases. -/
def putGas (w : Nat → GasMap) (s : SState GasPhase) : SState GasPhase :=
  { s with workers := s.workers.zipIdx.map (fun p =>
      { p.1 with rx := fun k => if k = .gasPhase then w p.2 else p.1.rx k }) }

/-- C81: what was set with `SetGasCompMoles` is still there after the state has been saved and
applied. -/
def GasSurvives : Prop :=
  ∀ (g : List Int) (ms : MapState) (names : List Name) (v : List ℚ) (s : SState GasPhase)
    (w : Nat → GasMap) (id : Int) (s1 s2 : SState GasPhase) (c : List ℚ),
    Consistent g ms → g.length = ms.nxyz → DistinctNames names → Proper (gasOf s) →
    s.ranges = ms.ranges → s.workers.length = ms.nthreads →
    setGasCompMoles ms names v (gasOf s) = .ok w →
    getGasComp GasComp.moles ms names (gasOf (putGas w s)) = .ok c →
    stateSave (putGas w s) id = .ok (.ok, s1) → stateApply s1 id = .ok (.ok, s2) →
    getGasComp GasComp.moles ms names (gasOf s2) = .ok c

/-- The gas phases made by `SetGasCompMoles` carry the number 1; saving stores them under that
number, so that of all new gas phases of a worker one is left, in cell 1. -/
theorem gas_survives_violated : ¬ GasSurvives := by
  intro h
  let s : SState GasPhase := ⟨[(0, 1)], [⟨fun _ => [], fun _ => [], (0, 1), []⟩]⟩
  let run : Out (List ℚ × List ℚ) := do
    let w ← setGasCompMoles caseMap [co2] [7, 7, 7, 8] (gasOf s)
    let c ← getGasComp GasComp.moles caseMap [co2] (gasOf (putGas w s))
    let s1 ← stateSave (putGas w s) 3
    let s2 ← stateApply s1.2 3
    let c' ← getGasComp GasComp.moles caseMap [co2] (gasOf s2.2)
    .ok (c, c')
  have hrun : run = .ok ([7, 7, 10 ^ 30, 8], [-1, -1, 10 ^ 30, 8]) := by decide +kernel
  simp only [run] at hrun
  have hg : Proper (gasOf s) := by
    intro n j e he
    have : gasOf s n = [] := by
      match n with
      | 0 => rfl
      | n + 1 => rfl
    rw [this] at he
    cases he
  cases h1 : setGasCompMoles caseMap [co2] [7, 7, 7, 8] (gasOf s) with
  | throw => rw [h1] at hrun; cases hrun
  | ub => rw [h1] at hrun; cases hrun
  | ok w =>
    rw [h1, Out.ok_bind] at hrun
    cases h2 : getGasComp GasComp.moles caseMap [co2] (gasOf (putGas w s)) with
    | throw => rw [h2] at hrun; cases hrun
    | ub => rw [h2] at hrun; cases hrun
    | ok c =>
      rw [h2, Out.ok_bind] at hrun
      cases h3 : stateSave (putGas w s) 3 with
      | throw => cases h3
      | ub => cases h3
      | ok r1 =>
        rw [h3, Out.ok_bind] at hrun
        have hr1 : r1.1 = .ok := by cases h3; rfl
        obtain ⟨a1, s1⟩ := r1
        simp only at hr1 hrun
        subst hr1
        cases h4 : stateApply s1 3 with
        | throw => rw [h4] at hrun; cases hrun
        | ub => rw [h4] at hrun; cases hrun
        | ok r2 =>
          rw [h4, Out.ok_bind] at hrun
          obtain ⟨a2, s2⟩ := r2
          have hr2 : a2 = .ok := by
            have : (match stateSave (putGas w s) 3 with
                | .ok r => (match stateApply r.2 3 with | .ok q => q.1 | _ => .fail)
                | _ => .fail) = a2 := by rw [h3]; simp only [h4]
            rw [← this]
            rfl
          subst hr2
          cases h5 : getGasComp GasComp.moles caseMap [co2] (gasOf s2) with
          | throw => rw [h5] at hrun; cases hrun
          | ub => rw [h5] at hrun; cases hrun
          | ok c' =>
            rw [h5, Out.ok_bind] at hrun
            simp only [Out.ok.injEq, Prod.mk.injEq] at hrun
            have := h caseGrid caseMap [co2] _ s w 3 s1 s2 c caseMap_consistent rfl
              (by simp [DistinctNames]) hg rfl rfl h1 h2 h3 h4
            rw [h5, hrun.1, hrun.2] at this
            revert this
            decide +kernel

/-- C81, partial: if the gas phases were stored under their own numbers and no cell without a
gas phase was given a non-negative value, they are stored under their own numbers after the
call, so the call is one of the updates for which `Verif.State.states_refine` shows that saving
and applying restores everything. -/
theorem gas_numbers_partial {g : List Int} {s : MapState} (hcon : Consistent g s)
    (hg : g.length = s.nxyz) {names : List Name} (hn : DistinctNames names) {v : List ℚ}
    (hv : s.nxyz * names.length ≤ v.length) {w : Nat → GasMap} (hw : Proper w)
    (hnum : ∀ n j e, find (w n) j = some e → e.nUser = j)
    (hold : ∀ n j k y, Owns s.ranges n j → k < names.length → Given g s.nxyz v j k y → 0 ≤ y →
      ∃ e, find (w n) j = some e) :
    ∃ w', setGasCompMoles s names v w = .ok w' ∧
      ∀ n j e, find (w' n) j = some e → e.nUser = j := by
  obtain ⟨w', c, h1, _, _, _, _, h2, h3, h4⟩ := set_get_partial hcon hg hn hv hw
  refine ⟨w', h1, fun n j e he => ?_⟩
  by_cases ho : Owns s.ranges n j
  · have hex : ∃ e0, find (w n) j = some e0 := by
      rcases (h2 n j ho).mp ⟨e, he⟩ with ⟨k, y, hk, hy, hy0⟩ | ⟨e0, he0, _⟩
      · exact hold n j k y ho hk hy hy0
      · exact ⟨e0, he0⟩
    obtain ⟨e0, he0⟩ := hex
    rw [(h3 n j e0 e he0 he).1]
    exact hnum n j e0 he0
  · rw [h4 n j ho] at he; exact hnum n j e he

/-- A case for the premises of `gas_numbers_partial`: only the cell with a gas phase is given
moles. -/
example : (∀ n j e, find (caseGas n) j = some e → e.nUser = j) ∧
    ∀ n j k y, Owns caseMap.ranges n j → k < [co2].length →
      Given caseGrid caseMap.nxyz [2, -1, -1, -1] j k y → 0 ≤ y →
      ∃ e, find (caseGas n) j = some e := by
  refine ⟨fun n j e h => ?_, fun n j k y ho hk hy hy0 => ?_⟩
  · obtain ⟨_, rfl, rfl⟩ := caseGas_find h; rfl
  · obtain ⟨r, hr, hj⟩ := ho
    have hn0 : n = 0 := by
      have := (List.getElem?_eq_some_iff.mp hr).1
      simpa [caseMap] using this
    subst hn0
    simp only [caseMap, List.getElem?_cons_zero, Option.some.injEq] at hr
    subst hr
    have hk0 : k = 0 := by simpa using hk
    subst hk0
    obtain ⟨p, ⟨hp1, hp2⟩, hy'⟩ := hy
    rw [Nat.zero_mul, Nat.zero_add] at hy'
    match p with
    | 0 => simp only [caseGrid, List.getElem?_cons_zero, Option.some.injEq] at hp1; subst hp1; exact ⟨_, rfl⟩
    | 1 => simp at hy'; subst hy'; norm_num at hy0
    | 2 => simp at hy'; subst hy'; norm_num at hy0
    | 3 => simp at hy'; subst hy'; norm_num at hy0
    | p + 4 => simp at hy'

end Verif.Gas
