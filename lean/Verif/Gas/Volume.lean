import Verif.Gas.Props

/-! # Gas phase volumes, and writing back what was read -/

namespace Verif.Gas

open Verif.Mapping Verif.Grid Verif.Transfer Verif.Ranges Verif.OMap Verif.NameDouble Verif.Mixing
open Verif.State
open Verif.Conc (Primary)

/-- What `SetGasPhaseVolume` does to the gas phase of one cell. -/
def VolumeSet (x : ℚ) (o o' : Option (Ent GasPhase)) : Prop :=
  o' = if x < 0 then o
    else some { baseOf o with val := { (baseOf o).val with volume := x, type := .volume } }

theorem setVolume_spec (x : ℚ) (m : GasMap) (j : Int) :
    ∃ m', setVolume x m j = .ok m' ∧ (∀ j', j' ≠ j → find m' j' = find m j') ∧
      VolumeSet x (find m j) (find m' j) := by
  unfold setVolume VolumeSet
  by_cases hx : x < 0
  · simp only [if_pos hx]
    exact ⟨m, rfl, fun _ _ => rfl, rfl⟩
  · simp only [if_neg hx]
    cases hf : find m j with
    | some e =>
      refine ⟨_, rfl, fun j' hj => by rw [find_insert, if_neg hj], ?_⟩
      rw [find_insert, if_pos rfl]; rfl
    | none =>
      refine ⟨_, rfl, fun j' hj => by rw [find_insert, if_neg hj], ?_⟩
      rw [find_insert, if_pos rfl]; rfl

theorem gatherOne_spec {g : List Int} {s : MapState} (hcon : Consistent g s)
    (hg : g.length = s.nxyz) (v : List ℚ) (hv : s.nxyz ≤ v.length) :
    ∃ rows, (List.range s.count).mapM (gatherOne s v) = .ok rows ∧
      ∀ n j, Owns s.ranges n j → ∃ x p, idx rows j = .ok x ∧ Primary g j p ∧ v[p]? = some x := by
  have hrow : ∀ i, i < s.count → ∃ x p, gatherOne s v i = .ok x ∧ Primary g (i : Int) p ∧
      v[p]? = some x := by
    intro i hi
    obtain ⟨n, _, ho⟩ := hcon.ranges.2.owner (c := (i : Int)) (by omega) (by omega)
    obtain ⟨cells, p, h1, h2, h3, h4, _, _⟩ := Verif.Conc.primary_of_ready hcon hg ho
    have hp : p < v.length := by omega
    exact ⟨v[p], p, by simp only [gatherOne, h1, h2, Out.ok_bind, Verif.Conc.idx_lt hp], h3,
      List.getElem?_eq_getElem hp⟩
  let R : Nat → ℚ := fun i => match gatherOne s v i with | .ok x => x | _ => 0
  have hR : ∀ i ∈ List.range s.count, gatherOne s v i = .ok (R i) := by
    intro i hi
    obtain ⟨x, p, h, _⟩ := hrow i (List.mem_range.mp hi)
    simp only [R, h]
  refine ⟨(List.range s.count).map R, Verif.Conc.mapM_ok _ _ _ hR, fun n j ho => ?_⟩
  have hb := hcon.ranges.2.owns_bounds ho
  have hj : ((j.toNat : Nat) : Int) = j := by omega
  have hlt : j.toNat < s.count := by omega
  obtain ⟨x, p, a, b, c⟩ := hrow j.toNat hlt
  rw [hj] at b
  have e : R j.toNat = x := by
    have := hR j.toNat (List.mem_range.mpr hlt)
    rw [a] at this
    simpa using this.symm
  refine ⟨x, p, ?_, b, c⟩
  have := idx_nat (l := (List.range s.count).map R) (i := j.toNat) (a := R j.toNat) (by simp [hlt])
  rw [hj, e] at this
  exact this

/-- C79. `GetGasPhaseVolume` after `SetGasPhaseVolume`: where the value given for the first grid
cell of a reaction cell is not negative, it is returned in all grid cells of that reaction cell,
and the gas phase has fixed volume and its old components (none if it is new). Where it is
negative the gas phase is as before: its volume is returned, or -1 if there is none. -/
theorem set_get_volume {g : List Int} {s : MapState} (hcon : Consistent g s)
    (hg : g.length = s.nxyz) {v : List ℚ} (hv : s.nxyz ≤ v.length) (w : Nat → GasMap) :
    ∃ w' c, setGasPhaseVolume s v w = .ok w' ∧ getGasPhaseVolume s w' = .ok c ∧
      c.length = s.nxyz ∧
      (∀ (i : Nat) (x : Int), g[i]? = some x →
        (x < 0 → c[i]? = some (10 ^ 30)) ∧
        ∀ n p y, Owns s.ranges n x → Primary g x p → v[p]? = some y →
          (0 ≤ y → c[i]? = some y ∧ ∃ e', find (w' n) x = some e' ∧ e'.val.type = .volume ∧
            (∀ e, find (w n) x = some e → e' = { e with val := { e.val with
              volume := y, type := .volume } }) ∧
            (find (w n) x = none → e'.val.comps = [])) ∧
          (y < 0 → find (w' n) x = find (w n) x ∧
            (∀ e, find (w n) x = some e → c[i]? = some e.val.volume) ∧
            (find (w n) x = none → c[i]? = some (-1)))) ∧
      ∀ n j, ¬ Owns s.ranges n j → find (w' n) j = find (w n) j := by
  obtain ⟨rows, h1, h2⟩ := gatherOne_spec hcon hg v hv
  obtain ⟨w', a, b, d⟩ := loopCells_spec (rs := s.ranges) (rows := rows) (f := setVolume) (w := w)
    VolumeSet (fun _ _ => True) (fun x m j _ => setVolume_spec x m j)
    (fun n j ho => by
      obtain ⟨x, p, r1, _⟩ := h2 n j ho
      exact ⟨x, r1, trivial⟩)
  obtain ⟨c, g1, g2, g3⟩ := getGrid_own hcon hg 1
    (List.replicate (s.nxyz * 1) fillValue) (by simp)
    (fun n j => [match find (w' n) j with | none => -1 | some e => e.val.volume]) (fun n j => rfl)
  rw [Nat.mul_one] at g2
  refine ⟨w', c, ?_, g1, g2, fun i x hx => ?_, d⟩
  · simp only [setGasPhaseVolume, h1, Out.ok_bind]; exact a
  · have hi : i < s.nxyz := by rw [← hg]; exact (List.getElem?_eq_some_iff.mp hx).1
    obtain ⟨k1, k2⟩ := g3 i 0 x Nat.zero_lt_one hx
    rw [Nat.zero_mul, Nat.zero_add] at k1 k2
    refine ⟨fun hneg => ?_, fun n p y ho hp hy => ?_⟩
    · rw [k1 hneg, List.getElem?_replicate, if_pos (by omega)]; rfl
    · obtain ⟨y', p', r1, r2, r3⟩ := h2 n x ho
      obtain ⟨y'', r1', hs⟩ := b n x ho
      rw [r1] at r1'
      simp only [Out.ok.injEq] at r1'
      subst r1'
      rw [← Verif.Conc.Primary.unique hp r2, hy] at r3
      simp only [Option.some.injEq] at r3
      subst r3
      have hc := k2 n ho
      simp only [List.getElem?_cons_zero] at hc
      unfold VolumeSet at hs
      refine ⟨fun h0 => ?_, fun h0 => ?_⟩
      · rw [if_neg (by linarith)] at hs
        rw [hs] at hc
        refine ⟨hc, _, hs, rfl, fun e he => ?_, fun he => ?_⟩
        · rw [he]; rfl
        · rw [he]; rfl
      · rw [if_pos h0] at hs
        refine ⟨hs, fun e he => ?_, fun he => ?_⟩
        · rw [hc, hs, he]
        · rw [hc, hs, he]

/-! ## Writing back what was read -/

theorem setOrPush_id {cs : List GasComp} {n : Name} {c : GasComp} (h : lookup cs n = some c) :
    setOrPush cs n c.moles = cs := by
  induction cs with
  | nil => cases h
  | cons a cs ih =>
    rw [lookup_cons] at h
    rw [setOrPush]
    by_cases ha : SameName a.phaseName n
    · rw [if_pos ha] at h
      simp only [Option.some.injEq] at h
      subst h
      rw [if_pos ((same_iff _ _).mpr ha)]
    · rw [if_neg ha] at h
      rw [if_neg (fun h' => ha ((same_iff _ _).mp h')), ih h]

theorem update_id (row : List ℚ) (cs : List GasComp) (hm : ∀ c ∈ cs, 0 ≤ c.moles)
    (names : List Name) : ∀ k : Nat,
    (∀ (i : Nat) nm, names[i]? = some nm → row[k + i]? = some (getComp GasComp.moles cs nm)) →
    (names.zipIdx k).foldlM (updateComp row) cs = .ok cs := by
  induction names with
  | nil => intro k _; rfl
  | cons n names ih =>
    intro k h
    have h0 := h 0 n rfl
    rw [Nat.add_zero] at h0
    have hstep : updateComp row cs (n, k) = .ok cs := by
      simp only [updateComp, idx_nat h0, Out.ok_bind]
      rw [getComp_eq]
      cases hl : lookup cs n with
      | none =>
        simp only
        rw [if_neg (by norm_num), deleteComp_new hl]
      | some c =>
        have := hm c (lookup_some hl).1
        simp only
        rw [if_pos this, setCompMoles, if_neg (by linarith), setOrPush_id hl]
    rw [List.zipIdx_cons, List.foldlM_cons, hstep, Out.ok_bind]
    apply ih
    intro i nm hi
    have := h (i + 1) nm (by simpa using hi)
    rw [← this]; congr 1; omega

theorem push_none (row : List ℚ) (cs : List GasComp) (names : List Name) : ∀ k : Nat,
    (∀ (i : Nat), i < names.length → row[k + i]? = some (-1)) →
    (names.zipIdx k).foldlM (pushComp row) cs = .ok cs := by
  induction names with
  | nil => intro k _; rfl
  | cons n names ih =>
    intro k h
    have h0 := h 0 (by simp)
    rw [Nat.add_zero] at h0
    have hstep : pushComp row cs (n, k) = .ok cs := by
      simp only [pushComp, idx_nat h0, Out.ok_bind]
      rw [if_neg (by norm_num)]
    rw [List.zipIdx_cons, List.foldlM_cons, hstep, Out.ok_bind]
    apply ih
    intro i hi
    have := h (i + 1) (by simpa using hi)
    rw [← this]; congr 1; omega

/-- C80. Writing back what `GetGasCompMoles` returned changes no gas phase of any worker.

Partial: a gas phase without components (as `SetGasPhaseVolume` makes it) is erased
(`get_set_violated`); it is excluded by the third premise. Moles are not negative. -/
theorem get_set_partial {g : List Int} {s : MapState} (hcon : Consistent g s)
    (hg : g.length = s.nxyz) (names : List Name) {w : Nat → GasMap}
    (hm : ∀ n j e, find (w n) j = some e → ∀ c ∈ e.val.comps, 0 ≤ c.moles)
    (he : ∀ n j e, find (w n) j = some e → e.val.comps ≠ []) :
    ∃ c w', getGasComp GasComp.moles s names w = .ok c ∧ setGasCompMoles s names c w = .ok w' ∧
      ∀ n j, find (w' n) j = find (w n) j := by
  obtain ⟨c, g1, g2, g3⟩ := getGasComp_spec hcon hg GasComp.moles names w
  obtain ⟨rows, h1, h2⟩ := gatherRow_spec hcon hg names.length c (by omega)
  obtain ⟨w', a, b, d⟩ := loopCells_spec (rs := s.ranges) (rows := rows) (f := setCell names) (w := w)
    (fun _ o o' => o' = o)
    (fun row o => (∀ (i : Nat) nm, names[i]? = some nm →
        row[i]? = some (reported GasComp.moles o nm)) ∧
      ∀ e, o = some e → e.val.comps ≠ [] ∧ ∀ c ∈ e.val.comps, 0 ≤ c.moles)
    (fun row m j hq => by
      unfold setCell
      cases hf : find m j with
      | some e =>
        rw [hf] at hq
        obtain ⟨hq1, hq2⟩ := hq
        obtain ⟨hne, hmo⟩ := hq2 e rfl
        simp only [update_id row e.val.comps hmo names 0
          (fun i nm hi => by rw [Nat.zero_add]; exact hq1 i nm hi), Out.ok_bind]
        rw [if_neg hne]
        refine ⟨_, rfl, fun j' hj => by rw [find_insert, if_neg hj], ?_⟩
        rw [find_insert, if_pos rfl]
      | none =>
        rw [hf] at hq
        simp only [push_none row [] names 0 (fun i hi => by
          rw [Nat.zero_add, hq.1 i _ (List.getElem?_eq_getElem hi)]; rfl), Out.ok_bind, if_true]
        exact ⟨m, rfl, fun _ _ => rfl, hf⟩)
    (fun n j ho => by
      obtain ⟨row, p, r1, r2, r3, r4⟩ := h2 n j ho
      refine ⟨row, r1, fun i nm hi => ?_, fun e hf => ⟨he n j e hf, hm n j e hf⟩⟩
      have hk : i < names.length := (List.getElem?_eq_some_iff.mp hi).1
      rw [(r4 i hk).1, (g3 p i j nm hi r3.1).2 n ho])
  refine ⟨c, w', g1, ?_, fun n j => ?_⟩
  · simp only [setGasCompMoles, h1, Out.ok_bind]; exact a
  · by_cases ho : Owns s.ranges n j
    · obtain ⟨row, _, h⟩ := b n j ho; exact h
    · exact d n j ho

end Verif.Gas
