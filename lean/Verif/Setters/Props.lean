import Verif.Setters.Lemmas
import Verif.InitCond.Model

/-!
# Error-handler modes, grid setters and unit setters (C34, C35, C36, C82, C83, C84)
-/

namespace Verif.Setters

open Verif.Mapping Verif.Grid Verif.Ranges Verif.Getters Verif.Mixing
open Verif.Conc (Primary)

/-- One call in a state with a consistent mapping: it returns OK exactly when it is acceptable,
and a refused call is seen as the mode of the state tells. -/
theorem exec_ret {g : List Int} {s : RM} (hcon : Consistent g s.map)
    (hg : g.length = s.map.nxyz) (c : Call) :
    ∃ s' r, exec s c = .ok (s', r) ∧
      (Good s.openmp s.map.nxyz c → r = .value .ok) ∧
      (¬ Good s.openmp s.map.nxyz c →
        Refused (match c with | .errorMode _ => 0 | _ => s.mode) (refusal c) r) ∧
      (s'.map = s.map ∧ s'.openmp = s.openmp) := by
  cases c with
  | errorMode i =>
    refine ⟨(setErrorHandlerMode s i).1, (setErrorHandlerMode s i).2, rfl, fun hgood => ?_, fun hbad => ?_, ?_⟩
    · simp only [setErrorHandlerMode]
      have h1 : ¬ i < 0 := by rcases hgood with h | h | h | h <;> omega
      rw [if_neg h1]
      split
      · rw [finish_ok]
      · have : s.clear.openmp = true ∧ i = 3 := by
          rcases hgood with h | h | h | h
          · omega
          · omega
          · omega
          · exact h
        rw [if_pos this, finish_ok]
    · simp only [setErrorHandlerMode]
      simp only [Good, not_or] at hbad
      split
      · exact finish_refused (by simp) rfl rfl
      · split
        · omega
        · split
          · rename_i h; exact absurd h hbad.2.2.2
          · exact finish_refused (by simp) rfl rfl
    · simp only [setErrorHandlerMode]
      split_ifs <;> exact ⟨rfl, rfl⟩
  | grid a v =>
    by_cases hv : s.map.nxyz ≤ v.length
    · obtain ⟨s', h1, _, _, h4, _⟩ := setGrid_good hcon hg a hv
      exact ⟨s', _, h1, fun _ => rfl, fun h => absurd hv h, by rw [h4]; exact ⟨rfl, rfl⟩⟩
    · obtain ⟨s', r, h1, h2, h3⟩ := setGrid_bad s a v (by omega)
      exact ⟨s', r, h1, fun h => absurd h hv, fun _ => h3, by rw [h2]; exact ⟨rfl, rfl⟩⟩
  | mask v =>
    refine ⟨(setMask s v).1, (setMask s v).2, rfl, fun hgood => ?_, fun hbad => ?_, ?_⟩
    · have : ¬ v.length < s.map.nxyz := not_lt.mpr hgood
      simp only [setMask, RM.clear, this, if_false, finish_ok]
    · have : v.length < s.map.nxyz := not_le.mp hbad
      simp only [setMask, RM.clear, this, if_true]
      exact finish_refused (by simp) rfl rfl
    · simp only [setMask]; split_ifs <;> exact ⟨rfl, rfl⟩
  | units k u =>
    refine ⟨(setUnits s k u).1, (setUnits s k u).2, rfl, fun hgood => ?_, fun hbad => ?_, ?_⟩
    · simp only [setUnits, (unitTest_iff _ _ k u).mpr hgood, if_true, finish_ok]
    · have : ¬ unitTest k u = true := fun h => hbad ((unitTest_iff _ _ k u).mp h)
      simp only [setUnits, this]
      exact finish_refused (by simp) rfl rfl
    · simp only [setUnits]; split_ifs <;> exact ⟨rfl, rfl⟩
  | dumpName n =>
    refine ⟨(setDumpFileName s n).1, (setDumpFileName s n).2, rfl, fun hgood => ?_, fun hbad => ?_, ?_⟩
    · simp only [setDumpFileName, RM.clear]
      rw [if_pos (show n ≠ "" from hgood), finish_ok]
    · simp only [setDumpFileName, RM.clear]
      rw [if_neg (show ¬ n ≠ "" from hbad)]
      exact finish_refused (by simp) rfl rfl
    · simp only [setDumpFileName]; split_ifs <;> exact ⟨rfl, rfl⟩
  | filePrefix n =>
    refine ⟨(setFilePrefix s n).1, (setFilePrefix s n).2, rfl, fun hgood => ?_, fun hbad => ?_, ?_⟩
    · simp only [setFilePrefix, RM.clear]
      rw [if_neg (show ¬ n = "" from hgood), finish_ok]
    · simp only [setFilePrefix, RM.clear]
      rw [if_pos (show n = "" from not_not.mp hbad)]
      exact finish_refused (by simp) rfl rfl
    · simp only [setFilePrefix]; split_ifs <;> exact ⟨rfl, rfl⟩
  | time t => exact ⟨_, _, rfl, fun _ => rfl, fun h => absurd trivial h, rfl, rfl⟩
  | timeStep t => exact ⟨_, _, rfl, fun _ => rfl, fun h => absurd trivial h, rfl, rfl⟩
  | timeConversion t => exact ⟨_, _, rfl, fun _ => rfl, fun h => absurd trivial h, rfl, rfl⟩

/-- How a call changes the mode. -/
theorem exec_mode {g : List Int} {s s' : RM} {r : Ret} (hcon : Consistent g s.map)
    (hg : g.length = s.map.nxyz) (c : Call) (h : exec s c = .ok (s', r)) :
    s'.mode = nextMode s.openmp s.mode c := by
  cases c with
  | errorMode i =>
    simp only [exec, Out.ok.injEq] at h
    unfold nextMode
    have hs : s' = (setErrorHandlerMode s i).1 := by rw [h]
    rw [hs]
    have hiff : Good s.openmp 0 (.errorMode i) ↔
        i = 0 ∨ i = 1 ∨ i = 2 ∨ (s.openmp = true ∧ i = 3) := Iff.rfl
    simp only [setErrorHandlerMode]
    by_cases h1 : i < 0
    · rw [if_pos h1, if_neg (fun hh => by rcases hiff.mp hh with e | e | e | e <;> omega)]
      rfl
    · rw [if_neg h1]
      by_cases h2 : i < 3
      · rw [if_pos h2, if_pos (hiff.mpr (by omega))]
        rfl
      · rw [if_neg h2]
        by_cases h3 : s.openmp = true ∧ i = 3
        · rw [if_pos (show s.clear.openmp = true ∧ i = 3 from h3),
            if_pos (hiff.mpr (Or.inr (Or.inr (Or.inr h3))))]
          rfl
        · rw [if_neg (show ¬ (s.clear.openmp = true ∧ i = 3) from h3), if_neg]
          · rfl
          · intro hh
            rcases hiff.mp hh with e | e | e | e
            · omega
            · omega
            · omega
            · exact h3 e
  | grid a v =>
    by_cases hv : s.map.nxyz ≤ v.length
    · obtain ⟨t, h1, _, _, h4, _⟩ := setGrid_good hcon hg a hv
      simp only [exec, h1, Out.ok.injEq, Prod.mk.injEq] at h
      rw [← h.1, h4]; rfl
    · obtain ⟨t, r', h1, h2, _⟩ := setGrid_bad s a v (by omega)
      simp only [exec, h1, Out.ok.injEq, Prod.mk.injEq] at h
      rw [← h.1, h2]; rfl
  | mask v =>
    simp only [exec, Out.ok.injEq, setMask] at h
    split_ifs at h <;> (have e := congrArg Prod.fst h; simp only at e; rw [← e]; rfl)
  | units k u =>
    simp only [exec, Out.ok.injEq, setUnits] at h
    split_ifs at h <;> (have e := congrArg Prod.fst h; simp only at e; rw [← e]; rfl)
  | dumpName n =>
    simp only [exec, Out.ok.injEq, setDumpFileName] at h
    split_ifs at h <;> (have e := congrArg Prod.fst h; simp only at e; rw [← e]; rfl)
  | filePrefix n =>
    simp only [exec, Out.ok.injEq, setFilePrefix] at h
    split_ifs at h <;> (have e := congrArg Prod.fst h; simp only at e; rw [← e]; rfl)
  | time t => simp only [exec, Out.ok.injEq, Prod.mk.injEq] at h; rw [← h.1]; rfl
  | timeStep t => simp only [exec, Out.ok.injEq, Prod.mk.injEq] at h; rw [← h.1]; rfl
  | timeConversion t => simp only [exec, Out.ok.injEq, Prod.mk.injEq] at h; rw [← h.1]; rfl

/-- How a call changes the units. -/
theorem exec_units {g : List Int} {s s' : RM} {r : Ret} (hcon : Consistent g s.map)
    (hg : g.length = s.map.nxyz) (c : Call) (h : exec s c = .ok (s', r)) (k : UnitOf) :
    s'.units k = nextUnit k (s.units k) c := by
  cases c with
  | errorMode i =>
    simp only [exec, Out.ok.injEq, setErrorHandlerMode] at h
    split_ifs at h <;> (have e := congrArg Prod.fst h; simp only at e; rw [← e]; rfl)
  | grid a v =>
    by_cases hv : s.map.nxyz ≤ v.length
    · obtain ⟨t, h1, _, _, h4, _⟩ := setGrid_good hcon hg a hv
      simp only [exec, h1, Out.ok.injEq, Prod.mk.injEq] at h
      rw [← h.1, h4]; rfl
    · obtain ⟨t, r', h1, h2, _⟩ := setGrid_bad s a v (by omega)
      simp only [exec, h1, Out.ok.injEq, Prod.mk.injEq] at h
      rw [← h.1, h2]; rfl
  | mask v =>
    simp only [exec, Out.ok.injEq, setMask] at h
    split_ifs at h <;> (have e := congrArg Prod.fst h; simp only at e; rw [← e]; rfl)
  | units k' u =>
    simp only [exec, Out.ok.injEq, setUnits] at h
    show s'.units k = if k' = k ∧ Good false 0 (.units k u) then u else s.units k
    have hu := unitTest_iff false 0 k' u
    by_cases ht : unitTest k' u = true
    · rw [if_pos ht] at h
      have e := congrArg Prod.fst h
      simp only at e
      rw [← e]
      simp only [RM.finish]
      by_cases hk : k = k'
      · subst hk; simp [hu.mp ht]
      · rw [if_neg hk, if_neg (fun e => hk e.1.symm)]
        rfl
    · rw [if_neg ht] at h
      have e := congrArg Prod.fst h
      simp only at e
      rw [← e, if_neg]
      · rfl
      · rintro ⟨rfl, e⟩; exact ht (hu.mpr e)
  | dumpName n =>
    simp only [exec, Out.ok.injEq, setDumpFileName] at h
    split_ifs at h <;> (have e := congrArg Prod.fst h; simp only at e; rw [← e]; rfl)
  | filePrefix n =>
    simp only [exec, Out.ok.injEq, setFilePrefix] at h
    split_ifs at h <;> (have e := congrArg Prod.fst h; simp only at e; rw [← e]; rfl)
  | time t => simp only [exec, Out.ok.injEq, Prod.mk.injEq] at h; rw [← h.1]; rfl
  | timeStep t => simp only [exec, Out.ok.injEq, Prod.mk.injEq] at h; rw [← h.1]; rfl
  | timeConversion t => simp only [exec, Out.ok.injEq, Prod.mk.injEq] at h; rw [← h.1]; rfl

/-- The state after any history: mapping and build are kept, mode and units are those of the
history. -/
theorem runs_state {g : List Int} {openmp : Bool} {m : MapState} (hcon : Consistent g m)
    (hg : g.length = m.nxyz) {h : List Call} {s : RM} (hr : Runs (initial openmp m) h s) :
    s.map = m ∧ s.openmp = openmp ∧ s.mode = modeAfter openmp h ∧
      ∀ k, s.units k = unitAfter k h := by
  induction hr with
  | nil => exact ⟨rfl, rfl, rfl, fun k => rfl⟩
  | @snoc h s s' c r hr he _ ih =>
    obtain ⟨i1, i2, i3, i4⟩ := ih
    have hc : Consistent g s.map := i1 ▸ hcon
    have hl : g.length = s.map.nxyz := i1 ▸ hg
    obtain ⟨t, r', h1, _, _, h4⟩ := exec_ret hc hl c
    rw [he] at h1
    simp only [Out.ok.injEq, Prod.mk.injEq] at h1
    rw [← h1.1] at h4
    refine ⟨h4.1.trans i1, h4.2.trans i2, ?_, fun k => ?_⟩
    · rw [exec_mode hc hl c he, modeAfter, List.foldl_append, i2]
      rw [List.foldl_cons, List.foldl_nil, i3]
      rfl
    · rw [exec_units hc hl c he k, unitAfter, List.foldl_append]
      rw [List.foldl_cons, List.foldl_nil, i4 k]
      rfl

/-- C34. After every history of calls, the next call returns OK exactly when it is acceptable —
in particular mode calls with 0, 1 and 2 (and 3 in OpenMP builds) — and never throws or ends the
process then; a refused call returns its code in mode 0, throws in mode 1 and ends the process
with its code in mode 2, the mode being the argument of the last mode call of the history. A
refused mode call itself always returns its code, and puts mode 0 in force (see `modeAfter`). -/
theorem handler_modes {g : List Int} {openmp : Bool} {m : MapState} (hcon : Consistent g m)
    (hg : g.length = m.nxyz) {h : List Call} {s : RM} (hr : Runs (initial openmp m) h s)
    (c : Call) :
    ∃ s' r, exec s c = .ok (s', r) ∧
      (Good openmp m.nxyz c ↔ r = .value .ok) ∧
      (¬ Good openmp m.nxyz c →
        ((∀ i, c ≠ .errorMode i) → Refused (modeAfter openmp h) (refusal c) r) ∧
        (∀ i, c = .errorMode i → r = .value .invalidArg)) := by
  obtain ⟨i1, i2, i3, _⟩ := runs_state hcon hg hr
  obtain ⟨s', r, h1, h2, h3, _⟩ := exec_ret (g := g) (s := s) (i1 ▸ hcon) (i1 ▸ hg) c
  rw [i1, i2] at h2 h3
  refine ⟨s', r, h1, ⟨h2, fun e => ?_⟩, fun hb => ⟨fun hc => ?_, fun i hc => ?_⟩⟩
  · by_contra hb
    have hmode : ∀ k : List Call, modeAfter openmp k = 0 ∨ modeAfter openmp k = 1 ∨
        modeAfter openmp k = 2 ∨ modeAfter openmp k = 3 := by
      intro k
      unfold modeAfter
      induction k using List.reverseRecOn with
      | nil => exact Or.inl rfl
      | append_singleton k c ih =>
        rw [List.foldl_append]
        cases c with
        | errorMode i =>
          simp only [List.foldl_cons, List.foldl_nil, nextMode]
          split
          · rename_i hgood
            rcases hgood with h | h | h | ⟨_, h⟩ <;> simp [h]
          · simp
        | _ => exact ih
    have hR := h3 hb
    have hne : refusal c ≠ .ok := by cases c <;> simp [refusal]
    have hm : (match c with | .errorMode _ => (0 : Int) | _ => s.mode) = 0 ∨
        (match c with | .errorMode _ => (0 : Int) | _ => s.mode) = 1 ∨
        (match c with | .errorMode _ => (0 : Int) | _ => s.mode) = 2 ∨
        (match c with | .errorMode _ => (0 : Int) | _ => s.mode) = 3 := by
      have := hmode h
      rw [← i3] at this
      cases c <;> first | exact this | exact Or.inl rfl
    obtain ⟨r0, r1, r2, r3⟩ := hR
    rcases hm with hm | hm | hm | hm
    · have := r0 hm; rw [e] at this; simp at this; exact hne this.symm
    · have := r1 hm; rw [e] at this; simp at this
    · have := r2 hm; rw [e] at this; simp at this
    · have := r3 hm; rw [e] at this; simp at this; exact hne this.symm
  · rw [← i3]
    have := h3 hb
    cases c with
    | errorMode i => exact absurd rfl (hc i)
    | _ => exact this
  · subst hc
    exact (h3 hb).1 rfl

/-- C35. After every history, a grid vector is accepted iff it has a value for every grid cell.
A refused one changes no setting and no cell. An accepted one is stored (entry by entry for the
grid cells), no other array changes, and pressures and temperatures reach the solutions (and
fixed-pressure gas phases) of the reaction cells, each taking the value of its first grid cell. -/
theorem grid_setters {g : List Int} {openmp : Bool} {m : MapState} (hcon : Consistent g m)
    (hg : g.length = m.nxyz) {h : List Call} {s : RM} (hr : Runs (initial openmp m) h s)
    (a : Arr) (v : List ℚ) :
    ∃ s' r, exec s (.grid a v) = .ok (s', r) ∧
      (r = .value .ok ↔ m.nxyz ≤ v.length) ∧
      (v.length < m.nxyz → SameSettings s s') ∧
      (m.nxyz ≤ v.length →
        s' = { s with err := [], arr := s'.arr, sol := s'.sol, gas := s'.gas } ∧
        (∀ i, i < m.nxyz → ∃ x, v[i]? = some x ∧ (s'.arr a)[i]? = some x) ∧
        (∀ b, b ≠ a → s'.arr b = s.arr b) ∧ Distributed g a v s s') := by
  obtain ⟨i1, i2, i3, _⟩ := runs_state hcon hg hr
  obtain ⟨s', r, h1, h2, _⟩ := handler_modes hcon hg hr (.grid a v)
  refine ⟨s', r, h1, h2.symm, fun hv => ?_, fun hv => ?_⟩
  · obtain ⟨t, r', e1, e2, _⟩ := setGrid_bad s a v (i1 ▸ hv)
    rw [exec, e1] at h1
    simp only [Out.ok.injEq, Prod.mk.injEq] at h1
    rw [← h1.1]; exact e2
  · obtain ⟨t, e1, e2, e3, e4, e5⟩ := setGrid_good (g := g) (s := s) (i1 ▸ hcon) (i1 ▸ hg) a
      (i1 ▸ hv)
    rw [exec, e1] at h1
    simp only [Out.ok.injEq, Prod.mk.injEq] at h1
    obtain ⟨rfl, _⟩ := h1
    refine ⟨e4, fun i hi => ?_, e3, e5⟩
    exact ⟨v[i]'(by omega), List.getElem?_eq_getElem _, by rw [e2]; exact List.getElem?_eq_getElem _⟩

/-- C36. After every history of calls the unit settings are the last acceptable arguments, so the
solution unit is 1, 2 or 3 and every other unit selects a defined factor: the volume of the cell,
of its pores, or of its rock. -/
theorem units_defined {g : List Int} {openmp : Bool} {m : MapState} (hcon : Consistent g m)
    (hg : g.length = m.nxyz) {h : List Call} {s : RM} (hr : Runs (initial openmp m) h s) :
    (∀ k, s.units k = unitAfter k h) ∧
    (s.units .solution = 1 ∨ s.units .solution = 2 ∨ s.units .solution = 3) ∧
    (∀ k, k ≠ .solution → ∀ por rv : ℚ,
      (s.units k = 0 ∧ idx (InitCond.porosityFactor por rv) (s.units k) = .ok rv) ∨
      (s.units k = 1 ∧ idx (InitCond.porosityFactor por rv) (s.units k) = .ok (rv * por)) ∨
      (s.units k = 2 ∧ idx (InitCond.porosityFactor por rv) (s.units k) = .ok (rv * (1 - por)))) ∧
    (∀ k u, ∃ s' r, exec s (.units k u) = .ok (s', r) ∧
      (¬ Good openmp m.nxyz (.units k u) → SameSettings s s') ∧
      (Good openmp m.nxyz (.units k u) → s'.units k = u ∧ ∀ k', k' ≠ k →
        s'.units k' = s.units k')) := by
  obtain ⟨i1, i2, i3, i4⟩ := runs_state hcon hg hr
  have hval : ∀ k, Good openmp m.nxyz (.units k (s.units k)) := by
    intro k
    rw [i4 k]
    clear i4 i3 hr
    unfold unitAfter
    induction h using List.reverseRecOn with
    | nil => cases k <;> simp [Good]
    | append_singleton h c ih =>
      rw [List.foldl_append]
      cases c with
      | units k' u =>
        simp only [List.foldl_cons, List.foldl_nil, nextUnit]
        split
        · rename_i hh
          have := hh.2
          cases k <;> exact this
        · exact ih
      | _ => exact ih
  refine ⟨i4, hval .solution, fun k hk por rv => ?_, fun k u => ⟨(setUnits s k u).1,
    (setUnits s k u).2, rfl, fun hb => ?_, fun hgood => ?_⟩⟩
  · have hk2 : s.units k = 0 ∨ s.units k = 1 ∨ s.units k = 2 := by
      have := hval k
      cases k <;> first | exact absurd rfl hk | exact this
    rcases hk2 with e | e | e
    · exact Or.inl ⟨e, by rw [e]; rfl⟩
    · exact Or.inr (Or.inl ⟨e, by rw [e]; rfl⟩)
    · exact Or.inr (Or.inr ⟨e, by rw [e]; rfl⟩)
  · have : ¬ unitTest k u = true := fun e => hb ((unitTest_iff _ _ k u).mp e)
    simp only [setUnits, this]
    rfl
  · simp only [setUnits, (unitTest_iff _ _ k u).mpr hgood, if_true, finish_ok]
    exact ⟨trivial, fun k' hk' => by rw [if_neg hk']; rfl⟩

/-- C82. Pressures given by `SetPressure` come back from `GetPressure`: every grid cell mapped to
a reaction cell reads the value given for the first grid cell of that reaction cell, and an
unmapped cell the value given for itself. (Likewise temperatures, `temperature_round_trip`.) -/
theorem pressure_round_trip {g : List Int} {s : RM} (hcon : Consistent g s.map)
    (hg : g.length = s.map.nxyz)
    (hsol : ∀ n j, Owns s.map.ranges n j → ∃ x, s.sol n j = some x) (por rv : List ℚ)
    {v : List ℚ} (hv : s.map.nxyz ≤ v.length) :
    ∃ s' c, setGrid s .pressure v = .ok (s', .value .ok) ∧
      getPressure ⟨s'.map, por, rv, s'.sol⟩ (s'.arr .pressure) = .ok c ∧
      c.length = s.map.nxyz ∧
      ∀ (i : Nat) (j : Int), g[i]? = some j →
        (j < 0 → c[i]? = v[i]?) ∧ (∀ p, Primary g j p → 0 ≤ j → c[i]? = v[p]?) := by
  obtain ⟨s', h1, h2, _, h4, h5⟩ := setGrid_good hcon hg .pressure hv
  have hm : s'.map = s.map := by rw [h4]
  obtain ⟨c, e1, e2, e3⟩ := scan_grid (s := s'.map) (hm ▸ hcon) (hm ▸ hg) .skip s'.sol
    (fun h => absurd rfl h) (fun (x : Soln) _ => .ok x.patm) (fun x _ => x.patm)
    (fun _ _ _ _ _ _ _ => rfl) (resize (s'.arr .pressure) s'.map.nxyz inactive)
    (length_resize _ _ _)
  refine ⟨s', c, h1, by simp only [getPressure, e1, Out.ok_bind], by rw [e2, hm], ?_⟩
  intro i j hij
  have hi : i < s.map.nxyz := by rw [← hg]; exact (List.getElem?_eq_some_iff.mp hij).1
  refine ⟨fun hj => ?_, fun p hp hj => ?_⟩
  · rw [(e3 i j hij).1 hj, getElem?_resize _ _ _ _ (hm ▸ hi), h2, if_pos (by omega)]
  · obtain ⟨n, _, ho⟩ := hcon.ranges.2.owner hj (hcon.count_max.1 j (List.mem_of_getElem? hij))
    obtain ⟨x, hx⟩ := hsol n j ho
    have hpl : p < v.length := by
      have := (List.getElem?_eq_some_iff.mp hp.1).1
      omega
    have hvp := List.getElem?_eq_getElem hpl
    have hs := h5.sol n j p _ ho hp hvp
    rw [hx] at hs
    have ho' : Owns s'.map.ranges n j := by rw [hm]; exact ho
    rw [((e3 i j hij).2 n ho').1 _ hs, hvp]

/-- C82 for temperatures. -/
theorem temperature_round_trip {g : List Int} {s : RM} (hcon : Consistent g s.map)
    (hg : g.length = s.map.nxyz)
    (hsol : ∀ n j, Owns s.map.ranges n j → ∃ x, s.sol n j = some x) (por rv : List ℚ)
    {v : List ℚ} (hv : s.map.nxyz ≤ v.length) :
    ∃ s' c, setGrid s .temperature v = .ok (s', .value .ok) ∧
      getTemperature ⟨s'.map, por, rv, s'.sol⟩ (s'.arr .temperature) = .ok c ∧
      c.length = s.map.nxyz ∧
      ∀ (i : Nat) (j : Int), g[i]? = some j →
        (j < 0 → c[i]? = v[i]?) ∧ (∀ p, Primary g j p → 0 ≤ j → c[i]? = v[p]?) := by
  obtain ⟨s', h1, h2, _, h4, h5⟩ := setGrid_good hcon hg .temperature hv
  have hm : s'.map = s.map := by rw [h4]
  obtain ⟨c, e1, e2, e3⟩ := scan_grid (s := s'.map) (hm ▸ hcon) (hm ▸ hg) .skip s'.sol
    (fun h => absurd rfl h) (fun (x : Soln) _ => .ok x.tc) (fun x _ => x.tc)
    (fun _ _ _ _ _ _ _ => rfl) (resize (s'.arr .temperature) s'.map.nxyz inactive)
    (length_resize _ _ _)
  refine ⟨s', c, h1, by simp only [getTemperature, e1, Out.ok_bind], by rw [e2, hm], ?_⟩
  intro i j hij
  have hi : i < s.map.nxyz := by rw [← hg]; exact (List.getElem?_eq_some_iff.mp hij).1
  refine ⟨fun hj => ?_, fun p hp hj => ?_⟩
  · rw [(e3 i j hij).1 hj, getElem?_resize _ _ _ _ (hm ▸ hi), h2, if_pos (by omega)]
  · obtain ⟨n, _, ho⟩ := hcon.ranges.2.owner hj (hcon.count_max.1 j (List.mem_of_getElem? hij))
    obtain ⟨x, hx⟩ := hsol n j ho
    have hpl : p < v.length := by
      have := (List.getElem?_eq_some_iff.mp hp.1).1
      omega
    have hvp := List.getElem?_eq_getElem hpl
    have hs := h5.sol n j p _ ho hp hvp
    rw [hx] at hs
    have ho' : Owns s'.map.ranges n j := by rw [hm]; exact ho
    rw [((e3 i j hij).2 n ho').1 _ hs, hvp]

/-- The text that explains a code. -/
def explains : IRM → String
  | .fail => "ERROR: PhreeqcRM failed."
  | _ => "ERROR: Invalid argument."

/-- The method of a call. -/
def methodOf : Call → String
  | .errorMode _ => "PhreeqcRM::SetErrorHandlerMode"
  | .grid a _ => "PhreeqcRM::" ++ a.method
  | .mask _ => "PhreeqcRM::SetPrintChemistryMask"
  | .units k _ => k.method
  | .dumpName _ => "PhreeqcRM::SetDumpFileName"
  | _ => "PhreeqcRM::SetFilePrefix"

/-- C83. The error string always tells about the last call: it is empty after an accepted call,
whatever failed before, and after a refused call it ends with the meaning of the code and the
name of the method. -/
theorem error_string {g : List Int} {openmp : Bool} {m : MapState} (hcon : Consistent g m)
    (hg : g.length = m.nxyz) {h : List Call} {s : RM} (hr : Runs (initial openmp m) h s)
    (c : Call) {s' : RM} {r : Ret} (he : exec s c = .ok (s', r)) :
    (Good openmp m.nxyz c → s'.err = []) ∧
    (¬ Good openmp m.nxyz c → ∃ e, s'.err = e ++ [explains (refusal c), "ERROR: " ++ methodOf c, ""]) := by
  obtain ⟨i1, i2, _, _⟩ := runs_state hcon hg hr
  have fin_bad : ∀ (t : RM) (r : IRM) (n : String), r = .invalidArg ∨ r = .fail →
      ∃ e, (t.finish r n).1.err = e ++ [explains r, "ERROR: " ++ n, ""] := by
    rintro t r n (rfl | rfl) <;> exact ⟨t.err, by
      simp [RM.finish, returnHandler, IRM.toInt, say, decodeError, explains]⟩
  have hst : ∀ {t : RM × Ret}, Out.ok t = Out.ok (s', r) → t.1 = s' := fun h => by
    simp only [Out.ok.injEq] at h; rw [h]
  cases c with
  | errorMode i =>
    have e := hst he
    rw [← e]
    simp only [setErrorHandlerMode, Good]
    by_cases h1 : i < 0
    · rw [if_pos h1]
      exact ⟨fun hh => by omega, fun _ => fin_bad _ _ _ (by simp)⟩
    · rw [if_neg h1]
      by_cases h2 : i < 3
      · rw [if_pos h2, finish_ok]
        exact ⟨fun _ => rfl, fun hh => by omega⟩
      · rw [if_neg h2]
        by_cases h3 : s.openmp = true ∧ i = 3
        · rw [if_pos (show s.clear.openmp = true ∧ i = 3 from h3), finish_ok]
          exact ⟨fun _ => rfl, fun hh => absurd (Or.inr (Or.inr (Or.inr (i2 ▸ h3)))) hh⟩
        · rw [if_neg (show ¬ (s.clear.openmp = true ∧ i = 3) from h3)]
          refine ⟨fun hh => ?_, fun _ => fin_bad _ _ _ (by simp)⟩
          rcases hh with e | e | e | e
          · omega
          · omega
          · omega
          · rw [← i2] at e; exact absurd e h3
  | grid a v =>
    have hn : s.map.nxyz = m.nxyz := by rw [i1]
    refine ⟨fun hh => ?_, fun hh => ?_⟩
    · obtain ⟨t, e1, _, _, e4, _⟩ := setGrid_good (g := g) (s := s) (i1 ▸ hcon) (i1 ▸ hg) a
        (v := v) (by rw [hn]; exact hh)
      rw [exec, e1] at he
      simp only [Out.ok.injEq, Prod.mk.injEq] at he
      rw [← he.1, e4]
    · have hlt : v.length < s.clear.map.nxyz := by
        have : ¬ m.nxyz ≤ v.length := hh
        show v.length < s.map.nxyz
        omega
      have e0 : exec s (.grid a v) = .ok ((setGeneric s.clear a v).1.finish
          (setGeneric s.clear a v).2 ("PhreeqcRM::" ++ a.method)) := by
        rw [exec, setGrid, if_neg]
        simp [setGeneric, if_pos hlt]
      rw [e0] at he
      rw [← hst he]
      have e2 : (setGeneric s.clear a v).2 = .fail := by simp [setGeneric, if_pos hlt]
      rw [e2]
      obtain ⟨e, hE⟩ := fin_bad (setGeneric s.clear a v).1 .fail ("PhreeqcRM::" ++ a.method)
        (by simp)
      exact ⟨e, hE⟩
  | mask v =>
    rw [← hst he]
    simp only [setMask, Good]
    by_cases h1 : v.length < s.clear.map.nxyz
    · rw [if_pos h1]
      have : v.length < m.nxyz := by rw [← i1]; exact h1
      exact ⟨fun hh => by omega, fun _ => fin_bad _ _ _ (by simp)⟩
    · rw [if_neg h1, finish_ok]
      have : ¬ v.length < m.nxyz := by rw [← i1]; exact h1
      exact ⟨fun _ => rfl, fun hh => by omega⟩
  | units k u =>
    rw [← hst he]
    simp only [setUnits]
    by_cases h1 : unitTest k u = true
    · rw [if_pos h1, finish_ok]
      exact ⟨fun _ => rfl, fun hh => absurd ((unitTest_iff _ _ k u).mp h1) hh⟩
    · rw [if_neg h1]
      exact ⟨fun hh => absurd ((unitTest_iff _ _ k u).mpr hh) h1, fun _ => fin_bad _ _ _ (by simp)⟩
  | dumpName n =>
    rw [← hst he]
    simp only [setDumpFileName]
    by_cases h1 : n ≠ ""
    · rw [if_pos h1, finish_ok]
      exact ⟨fun _ => rfl, fun hh => absurd h1 hh⟩
    · rw [if_neg h1]
      exact ⟨fun hh => absurd hh h1, fun _ => fin_bad _ _ _ (by simp)⟩
  | filePrefix n =>
    rw [← hst he]
    simp only [setFilePrefix]
    by_cases h1 : n = ""
    · rw [if_pos h1]
      exact ⟨fun hh => absurd h1 hh, fun _ => fin_bad _ _ _ (by simp)⟩
    · rw [if_neg h1, finish_ok]
      exact ⟨fun _ => rfl, fun hh => absurd h1 hh⟩
  | time t => rw [← hst he]; exact ⟨fun _ => rfl, fun hh => absurd trivial hh⟩
  | timeStep t => rw [← hst he]; exact ⟨fun _ => rfl, fun hh => absurd trivial hh⟩
  | timeConversion t => rw [← hst he]; exact ⟨fun _ => rfl, fun hh => absurd trivial hh⟩

/-- C84 as stated: a refused call leaves every setting as it was. -/
def RefusedUnchanged : Prop :=
  ∀ (g : List Int) (openmp : Bool) (m : MapState) (h : List Call) (s s' : RM) (c : Call) (r : Ret),
    Consistent g m → g.length = m.nxyz → Runs (initial openmp m) h s →
    exec s c = .ok (s', r) → ¬ Good openmp m.nxyz c → SameSettings s s'

/-- C84, the part that holds: all calls except mode, dump name and prefix. Missing: those three,
see `refused_unchanged_violated`. -/
theorem refused_unchanged_partial {g : List Int} {openmp : Bool} {m : MapState}
    (hcon : Consistent g m) (hg : g.length = m.nxyz) {h : List Call} {s s' : RM} {r : Ret}
    (hr : Runs (initial openmp m) h s) (c : Call) (he : exec s c = .ok (s', r))
    (hbad : ¬ Good openmp m.nxyz c) (h1 : ∀ i, c ≠ .errorMode i) (h2 : ∀ n, c ≠ .dumpName n)
    (h3 : ∀ n, c ≠ .filePrefix n) : SameSettings s s' := by
  obtain ⟨i1, i2, _, _⟩ := runs_state hcon hg hr
  have hst : ∀ {t : RM × Ret}, Out.ok t = Out.ok (s', r) → t.1 = s' := fun h => by
    simp only [Out.ok.injEq] at h; rw [h]
  cases c with
  | errorMode i => exact absurd rfl (h1 i)
  | dumpName n => exact absurd rfl (h2 n)
  | filePrefix n => exact absurd rfl (h3 n)
  | grid a v =>
    obtain ⟨t, r', e1, e2, _⟩ := setGrid_bad s a v (by rw [i1]; exact not_le.mp hbad)
    rw [exec, e1] at he
    simp only [Out.ok.injEq, Prod.mk.injEq] at he
    rw [← he.1]; exact e2
  | mask v =>
    rw [← hst he]
    have : v.length < s.clear.map.nxyz := by
      show v.length < s.map.nxyz
      rw [i1]; exact not_le.mp hbad
    simp only [setMask, if_pos this]
    rfl
  | units k u =>
    rw [← hst he]
    have : ¬ unitTest k u = true := fun e => hbad ((unitTest_iff _ _ k u).mp e)
    simp only [setUnits, this]
    rfl
  | time t => exact absurd trivial hbad
  | timeStep t => exact absurd trivial hbad
  | timeConversion t => exact absurd trivial hbad

end Verif.Setters
