import Verif.Gas.Get

/-!
# Gas component moles and volumes

C16 (gas part), C33, C79, C80, C81.
-/

namespace Verif.Gas

open Verif.Mapping Verif.Grid Verif.Transfer Verif.Ranges Verif.OMap Verif.NameDouble Verif.Mixing
open Verif.State
open Verif.Conc (Primary)

theorem given_iff {g : List Int} {nxyz : Nat} {v : List ℚ} {j : Int} {p : Nat} (hp : Primary g j p)
    (k : Nat) (x : ℚ) : Given g nxyz v j k x ↔ v[k * nxyz + p]? = some x := by
  constructor
  · rintro ⟨q, hq, h⟩; rw [Verif.Conc.Primary.unique hp hq]; exact h
  · exact fun h => ⟨p, hp, h⟩

/-- What the call leaves, cell by cell. -/
theorem set_spec {g : List Int} {s : MapState} (hcon : Consistent g s) (hg : g.length = s.nxyz)
    {names : List Name} (hn : DistinctNames names) {v : List ℚ}
    (hv : s.nxyz * names.length ≤ v.length) {w : Nat → GasMap} (hw : Proper w) :
    ∃ w', setGasCompMoles s names v w = .ok w' ∧
      (∀ n j, Owns s.ranges n j → ∃ row p, Primary g j p ∧ row.length = names.length ∧
        (∀ k, k < names.length → row[k]? = v[k * s.nxyz + p]? ∧ k * s.nxyz + p < v.length) ∧
        CellSet names row (find (w n) j) (find (w' n) j)) ∧
      (∀ n j, ¬ Owns s.ranges n j → find (w' n) j = find (w n) j) := by
  obtain ⟨rows, h1, h2⟩ := gatherRow_spec hcon hg names.length v hv
  obtain ⟨w', a, b, c⟩ := loopCells_spec (rs := s.ranges) (rows := rows) (f := setCell names) (w := w)
    (fun row o o' => CellSet names row o o')
    (fun row o => row.length = names.length ∧ ∀ e, o = some e → Distinct e.val.comps)
    (fun row m j hq => setCell_spec hn hq.1 hq.2)
    (fun n j ho => by
      obtain ⟨row, p, r1, r2, _⟩ := h2 n j ho
      exact ⟨row, r1, r2, fun e he => hw n j e he⟩)
  refine ⟨w', ?_, ?_, c⟩
  · simp only [setGasCompMoles, h1, Out.ok_bind]; exact a
  · intro n j ho
    obtain ⟨row, p, r1, r2, r3, r4⟩ := h2 n j ho
    obtain ⟨row', r1', hc⟩ := b n j ho
    rw [r1] at r1'
    simp only [Out.ok.injEq] at r1'
    subst r1'
    exact ⟨row, p, r3, r2, r4, hc⟩

theorem comps_nil {cs : List GasComp} (h : ∀ n, lookup cs n = none) : cs = [] := by
  cases cs with
  | nil => rfl
  | cons c cs =>
    have := lookup_none.mp (h c.phaseName) c List.mem_cons_self
    exact absurd rfl this

/-- C33. `GetGasCompMoles` after `SetGasCompMoles`: every grid cell mapped to a reaction cell
shows the value given for that cell's first grid cell, or -1 if it was negative; unmapped grid
cells show 1e30. A gas phase is present afterwards exactly when some value was not negative or
it has a component that is not in the list. A gas phase that was present keeps its number, type,
pressure, volume and unlisted components; cells of other workers are untouched.

Partial: a gas phase that lists one component twice under names differing in case
(`set_get_violated`) is excluded by `Proper`. The names of the list are distinct in PHREEQC,
which takes them from the database (Phreeqc.cpp:225-252). -/
theorem set_get_partial {g : List Int} {s : MapState} (hcon : Consistent g s)
    (hg : g.length = s.nxyz) {names : List Name} (hn : DistinctNames names) {v : List ℚ}
    (hv : s.nxyz * names.length ≤ v.length) {w : Nat → GasMap} (hw : Proper w) :
    ∃ w' c, setGasCompMoles s names v w = .ok w' ∧
      getGasComp GasComp.moles s names w' = .ok c ∧ Proper w' ∧
      c.length = s.nxyz * names.length ∧
      (∀ (i k : Nat) (x : Int), k < names.length → g[i]? = some x →
        (x < 0 → c[k * s.nxyz + i]? = some (10 ^ 30)) ∧
        ∀ y, 0 ≤ x → Given g s.nxyz v x k y →
          c[k * s.nxyz + i]? = some (if 0 ≤ y then y else -1)) ∧
      (∀ n j, Owns s.ranges n j → ((∃ e, find (w' n) j = some e) ↔
        (∃ k y, k < names.length ∧ Given g s.nxyz v j k y ∧ 0 ≤ y) ∨
        ∃ e, find (w n) j = some e ∧
          ∃ c ∈ e.val.comps, ∀ nm ∈ names, ¬ SameName nm c.phaseName)) ∧
      (∀ n j e e', find (w n) j = some e → find (w' n) j = some e' →
        e'.nUser = e.nUser ∧ e'.val = { e.val with comps := e'.val.comps } ∧
        ∀ c, (∀ nm ∈ names, ¬ SameName nm c.phaseName) →
          (c ∈ e'.val.comps ↔ c ∈ e.val.comps)) ∧
      ∀ n j, ¬ Owns s.ranges n j → find (w' n) j = find (w n) j := by
  obtain ⟨w', h1, h2, h3⟩ := set_spec hcon hg hn hv hw
  obtain ⟨c, g1, g2, g3⟩ := getGasComp_spec hcon hg GasComp.moles names w'
  have hdist : ∀ n j, Distinct (compsOf (find (w n) j)) := by
    intro n j
    cases hf : find (w n) j with
    | none => simp [compsOf, Distinct, DistinctNames]
    | some e => exact hw n j e hf
  refine ⟨w', c, h1, g1, ?_, g2, ?_, ?_, ?_, h3⟩
  · intro n j e he
    by_cases ho : Owns s.ranges n j
    · obtain ⟨row, p, _, _, _, cs', hu, heq⟩ := h2 n j ho
      rw [he] at heq
      split at heq
      · cases heq
      · simp only [Option.some.injEq] at heq
        subst heq
        exact hu.distinct
    · rw [h3 n j ho] at he; exact hw n j e he
  · intro i k x hk hx
    obtain ⟨a, b⟩ := g3 i k x _ (List.getElem?_eq_getElem hk) hx
    refine ⟨a, fun y hx0 hy => ?_⟩
    obtain ⟨n, _, ho⟩ := hcon.ranges.2.owner hx0 (hcon.count_max.1 x (List.mem_of_getElem? hx))
    rw [b n ho]
    obtain ⟨row, p, hp, hl, hr, cs', hu, heq⟩ := h2 n x ho
    have hy' := (given_iff hp k y).mp hy
    rw [← (hr k hk).1] at hy'
    have hlk := hu.listed k _ y (List.getElem?_eq_getElem hk) hy'
    rw [heq]
    by_cases hc : cs' = []
    · rw [if_pos hc]
      subst hc
      simp only [reported, lookup, List.find?_nil] at hlk ⊢
      split at hlk
      · cases hlk
      · rename_i h; rw [if_neg h]
    · rw [if_neg hc]
      simp only [reported, getComp_eq, hlk]
      by_cases hy0 : 0 ≤ y
      · simp only [if_pos hy0, withMoles]
        cases lookup (compsOf (find (w n) x)) names[k] <;> rfl
      · simp only [if_neg hy0]
  · intro n j ho
    obtain ⟨row, p, hp, hl, hr, cs', hu, heq⟩ := h2 n j ho
    have hex : (∃ e, find (w' n) j = some e) ↔ cs' ≠ [] := by
      rw [heq]
      by_cases hc : cs' = []
      · simp [hc]
      · simp [hc]
    rw [hex]
    constructor
    · intro hne
      by_contra hno
      rw [not_or] at hno
      obtain ⟨hno1, hno2⟩ := hno
      apply hne
      apply comps_nil
      intro nm
      by_cases hin : ∃ m ∈ names, SameName m nm
      · obtain ⟨m, hm, hs⟩ := hin
        obtain ⟨k, hk, rfl⟩ := List.getElem_of_mem hm
        have hkr := hr k hk
        have hv' := List.getElem?_eq_getElem hkr.2
        rw [← lookup_congr hs, hu.listed k _ _ (List.getElem?_eq_getElem hk) (hkr.1.trans hv'),
          if_neg]
        intro h0
        exact hno1 ⟨k, _, hk, (given_iff hp k _).mpr hv', h0⟩
      · have hin' : ∀ m ∈ names, ¬ SameName m nm := fun m hm hs => hin ⟨m, hm, hs⟩
        rw [hu.other nm hin']
        cases hlk : lookup (compsOf (find (w n) j)) nm with
        | none => rfl
        | some d =>
          exfalso
          obtain ⟨hd1, hd2⟩ := lookup_some hlk
          cases hf : find (w n) j with
          | none => rw [hf] at hd1; simp [compsOf] at hd1
          | some e =>
            rw [hf] at hd1
            exact hno2 ⟨e, hf, d, hd1, fun m hm hs => hin' m hm (hs.trans hd2)⟩
    · rintro (⟨k, y, hk, hy, hy0⟩ | ⟨e, he, d, hd, hno⟩) hnil
      · have hy' := (given_iff hp k y).mp hy
        rw [← (hr k hk).1] at hy'
        have hlk := hu.listed k _ y (List.getElem?_eq_getElem hk) hy'
        rw [if_pos hy0, hnil] at hlk
        cases hlk
      · have hlk := hu.other d.phaseName hno
        rw [he] at hlk
        rw [lookup_mem (show Distinct (compsOf (some e)) from hw n j e he) hd, hnil] at hlk
        cases hlk
  · intro n j e e' he he'
    by_cases ho : Owns s.ranges n j
    · obtain ⟨row, p, hp, hl, hr, cs', hu, heq⟩ := h2 n j ho
      have hd := hw n j e he
      rw [he, he'] at heq
      rw [he] at hu
      split at heq
      · cases heq
      · simp only [Option.some.injEq] at heq
        subst heq
        refine ⟨rfl, rfl, fun c hc => ?_⟩
        have hlk := hu.other c.phaseName hc
        constructor
        · intro hm
          rw [lookup_mem hu.distinct hm] at hlk
          exact (lookup_some hlk.symm).1
        · intro hm
          rw [lookup_mem (show Distinct (compsOf (some e)) from hd) hm] at hlk
          exact (lookup_some hlk).1
    · rw [h3 n j ho, he] at he'
      cases he'
      exact ⟨rfl, rfl, fun _ _ => Iff.rfl⟩

/-- A gas phase made by `SetGasCompMoles` has the number 1, whatever its cell. -/
theorem new_phase_number {g : List Int} {s : MapState} (hcon : Consistent g s)
    (hg : g.length = s.nxyz) {names : List Name} (hn : DistinctNames names) {v : List ℚ}
    (hv : s.nxyz * names.length ≤ v.length) {w w' : Nat → GasMap} (hw : Proper w)
    (h : setGasCompMoles s names v w = .ok w') {n : Nat} {j : Int} {e : Ent GasPhase}
    (ho : find (w n) j = none) (he : find (w' n) j = some e) : e.nUser = 1 := by
  obtain ⟨w'', h1, h2, h3⟩ := set_spec hcon hg hn hv hw
  rw [h] at h1
  cases h1
  by_cases hown : Owns s.ranges n j
  · obtain ⟨row, p, hp, hl, hr, cs', hu, heq⟩ := h2 n j hown
    rw [ho, he] at heq
    split at heq
    · cases heq
    · simp only [Option.some.injEq] at heq
      subst heq
      rfl
  · rw [h3 n j hown, ho] at he; cases he

/-- C16 for gas components: `GetGasCompMoles`, `GetGasCompPressures` and `GetGasCompPhi` return
in all grid cells of a reaction cell the member of the component with that name, -1 where the
cell has no gas phase or the gas phase lacks the component, and 1e30 in unmapped grid cells. -/
theorem getGasComp_grid {g : List Int} {s : MapState} (hcon : Consistent g s)
    (hg : g.length = s.nxyz) (field : GasComp → ℚ) (names : List Name) {w : Nat → GasMap}
    (hw : Proper w) :
    ∃ c, getGasComp field s names w = .ok c ∧ c.length = s.nxyz * names.length ∧
      ∀ (i k : Nat) (x : Int) nm, names[k]? = some nm → g[i]? = some x →
        (x < 0 → c[k * s.nxyz + i]? = some (10 ^ 30)) ∧
        ∀ n, Owns s.ranges n x →
          (find (w n) x = none → c[k * s.nxyz + i]? = some (-1)) ∧
          ∀ e, find (w n) x = some e →
            (Lacks e.val nm → c[k * s.nxyz + i]? = some (-1)) ∧
            ∀ d ∈ e.val.comps, SameName d.phaseName nm →
              c[k * s.nxyz + i]? = some (field d) := by
  obtain ⟨c, h1, h2, h3⟩ := getGasComp_spec hcon hg field names w
  refine ⟨c, h1, h2, fun i k x nm hnm hx => ?_⟩
  obtain ⟨a, b⟩ := h3 i k x nm hnm hx
  refine ⟨a, fun n ho => ⟨fun hf => ?_, fun e he => ⟨fun hl => ?_, fun d hd hs => ?_⟩⟩⟩
  · rw [b n ho, hf]; rfl
  · rw [b n ho, he]
    simp only [reported, getComp_eq, lookup_none.mpr hl]
  · rw [b n ho, he]
    simp only [reported, getComp_eq, ← lookup_congr hs,
      lookup_mem (show Distinct e.val.comps from hw n x e he) hd]

end Verif.Gas
