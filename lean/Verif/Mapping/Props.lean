import Verif.Mapping.Lemmas
import Verif.Ranges.Props

/-!
# C02, C03, C04: `CreateMapping`

`createMapping` is the model of the call; `initial`-like states come from `construct`.
-/

namespace Verif.Mapping

open Verif.Ranges

/-- What a user reads off after a successful mapping: `g` is the vector given, `s` the
module state. -/
structure Consistent (g : List Int) (s : MapState) : Prop where
  /-- the reaction-cell count is one more than the largest entry -/
  count_max : (∀ x ∈ g, x < s.count) ∧ ((s.count : Int) - 1) ∈ g
  back_len : s.backward.length = s.count
  /-- each reaction cell lists exactly its grid cells, in increasing order, at least one -/
  back : ∀ (n : Nat) (cells : List Nat), s.backward[n]? = some cells →
    cells ≠ [] ∧ cells.Pairwise (· < ·) ∧ ∀ i, i ∈ cells ↔ g[i]? = some (n : Int)
  fwd_len : s.forward.length = s.nxyz
  /-- forward mapping inverts the first entry of each list ... -/
  fwd : ∀ (i n : Nat), s.forward[i]? = some (n : Int) ↔
    ∃ cells, s.backward[n]? = some cells ∧ cells.head? = some i
  /-- ... unmapped grid cells keep their negative entry ... -/
  fwd_inactive : ∀ (i : Nat) (x : Int), g[i]? = some x → x < 0 → s.forward[i]? = some x
  /-- ... and further grid cells of a reaction cell are marked -1 -/
  fwd_other : ∀ (i n : Nat) (cells : List Nat), s.backward[n]? = some cells → i ∈ cells →
    cells.head? ≠ some i → s.forward[i]? = some (-1)
  ranges : IsPartition s.count s.nthreads s.ranges

/-- C02. After a successful `CreateMapping` the two directions are consistent and the
reaction cells are partitioned over the workers; grid size and worker count are kept. -/
theorem createMapping_consistent (s s' : MapState) (g : List Int)
    (h : createMapping s g = .ok (.ok, s')) :
    Consistent g s' ∧ s'.nxyz = s.nxyz ∧ s'.nthreads = s.nthreads ∧ g.length = s.nxyz := by
  unfold createMapping at h
  obtain ⟨hm0, hm1, hm2⟩ := maxLoop_spec g
  obtain ⟨back, hb, hbl, hbp⟩ := fill_of_max g
  split at h
  · simp at h
  · rename_i hlen
    have hlen : g.length = s.nxyz := by omega
    simp only at h
    split at h
    · simp at h
    · rename_i hth
      rw [hb] at h
      simp only at h
      split at h
      · simp at h
      · rename_i hany
        have hany' : back.any List.isEmpty = false := Bool.not_eq_true _ ▸ hany
        have hall := (any_empty_iff hbl hbp).mp hany'
        by_cases hn0 : s.nthreads = 0
        · simp [setEndCells, hn0] at h
        · obtain ⟨rs, hrs, hpart, -⟩ := setEndCells_partition (maxLoop g + 1).toNat s.nthreads
            (by omega) (by omega)
          rw [hrs] at h
          simp only [Out.ok_bind, Out.pure_eq, Out.ok.injEq, Prod.mk.injEq, true_and] at h
          subst h
          -- the list stored for reaction cell n
          have hcell : ∀ (n : Nat) (cells : List Nat), back[n]? = some cells →
              n < (maxLoop g + 1).toNat ∧ cells = positions 0 g n := by
            intro n cells hc
            have hlt : n < (maxLoop g + 1).toNat := by
              by_contra hge
              rw [List.getElem?_eq_none (by omega)] at hc
              simp at hc
            exact ⟨hlt, by have := hbp n hlt; rw [hc] at this; simpa using this⟩
          have hmem : ∀ (n : Nat) (cells : List Nat), back[n]? = some cells →
              ∀ i, i ∈ cells ↔ g[i]? = some (n : Int) := by
            intro n cells hc i
            rw [(hcell n cells hc).2, mem_positions]; simp
          -- a grid cell in the tail of some list: which list
          have htail : ∀ i, (∃ cells ∈ back, i ∈ cells.tail) ↔
              ∃ (n : Nat) (cells : List Nat), back[n]? = some cells ∧ i ∈ cells ∧
                cells.head? ≠ some i := by
            intro i
            constructor
            · rintro ⟨cells, hc, hi⟩
              obtain ⟨n, hn⟩ := List.mem_iff_getElem?.mp hc
              refine ⟨n, cells, hn, List.mem_of_mem_tail hi, ?_⟩
              have hs : cells.Pairwise (· < ·) := by
                rw [(hcell n cells hn).2]; exact positions_sorted _ _ _
              cases cells with
              | nil => simp at hi
              | cons a as =>
                simp only [List.tail_cons] at hi
                have := (List.pairwise_cons.mp hs).1 i hi
                simp; omega
            · rintro ⟨n, cells, hn, hi, hh⟩
              refine ⟨cells, List.mem_of_getElem? hn, ?_⟩
              cases cells with
              | nil => simp at hi
              | cons a as =>
                simp only [List.head?_cons, ne_eq, Option.some.injEq] at hh
                rcases List.mem_cons.mp hi with e | e
                · exact absurd e.symm hh
                · simpa using e
          refine ⟨⟨⟨?_, ?_⟩, hbl, ?_, ?_, ?_, ?_, ?_, hpart⟩, rfl, rfl, hlen⟩
          · intro x hx; have := hm1 x hx; simp only; omega
          · have := hall (maxLoop g).toNat (by omega)
            simp only
            rw [show ((maxLoop g + 1).toNat : Int) - 1 = ((maxLoop g).toNat : Int) by omega]
            exact this
          · intro n cells hc
            simp only at hc
            obtain ⟨hlt, he⟩ := hcell n cells hc
            refine ⟨?_, ?_, hmem n cells hc⟩
            · rw [he]; intro h0; exact positions_eq_nil.mp h0 (hall n hlt)
            · rw [he]; exact positions_sorted _ _ _
          · simp only [markLoop_length]; exact hlen
          · intro i n
            simp only
            constructor
            · intro hf
              have hi : i < g.length := by
                by_contra hge
                rw [List.getElem?_eq_none (by rw [markLoop_length]; omega)] at hf
                simp at hf
              have hgi : g[i]? = some g[i] := List.getElem?_eq_getElem hi
              rcases markLoop_get back g i g[i] hgi with ⟨_, h1⟩ | ⟨h1, h2⟩
              · rw [h1] at hf; simp at hf
              · rw [h2] at hf
                simp only [Option.some.injEq] at hf
                have hlt : n < (maxLoop g + 1).toNat := by
                  have := hm1 g[i] (List.getElem_mem hi); omega
                have hbn := hbp n hlt
                refine ⟨_, hbn, ?_⟩
                by_contra hh
                exact h1 ((htail i).mpr ⟨n, _, hbn,
                  (hmem n _ hbn i).mpr (by rw [hgi, hf]), hh⟩)
            · rintro ⟨cells, hc, hh⟩
              have hi : i ∈ cells := List.mem_of_mem_head? hh
              have hgi := (hmem n cells hc i).mp hi
              rcases markLoop_get back g i n hgi with ⟨h1, _⟩ | ⟨_, h2⟩
              · obtain ⟨m, cs, hm, hics, hne⟩ := (htail i).mp h1
                have e2 := (hmem m cs hm i).mp hics
                rw [hgi] at e2
                have : n = m := by simp at e2; omega
                subst this
                rw [hc] at hm
                simp only [Option.some.injEq] at hm
                subst hm
                exact absurd hh hne
              · exact h2
          · intro i x hgi hx
            simp only
            rcases markLoop_get back g i x hgi with ⟨h1, _⟩ | ⟨_, h2⟩
            · obtain ⟨m, cs, hm, hics, _⟩ := (htail i).mp h1
              have e2 := (hmem m cs hm i).mp hics
              rw [hgi] at e2
              simp at e2; omega
            · exact h2
          · intro i n cells hc hi hh
            simp only at hc ⊢
            have hgi := (hmem n cells hc i).mp hi
            rcases markLoop_get back g i n hgi with ⟨_, h2⟩ | ⟨h1, _⟩
            · exact h2
            · exact absurd ((htail i).mpr ⟨n, cells, hc, hi, hh⟩) h1

/-- The state of a fresh module with 6 grid cells and 2 workers, used below. -/
def fresh62 : MapState :=
  { nxyz := 6, nthreads := 2, count := 6, forward := [0, 1, 2, 3, 4, 5],
    backward := [[0], [1], [2], [3], [4], [5]], ranges := [(0, 2), (3, 5)] }

example : construct 6 2 8 = .ok fresh62 := by decide

/-- The hypothesis of C02 is met by a mapping with symmetry and an inactive cell. -/
example : createMapping fresh62 [0, 1, 0, -7, 2, 1] = .ok (.ok,
    { nxyz := 6, nthreads := 2, count := 3, forward := [0, 1, -1, -7, 2, -1],
      backward := [[0, 2], [1, 5], [4]], ranges := [(0, 1), (2, 2)] }) := by decide

/-- C03. `CreateMapping` succeeds exactly when the vector has one entry per grid cell,
its non-negative entries are exactly `0 .. m` for some `m`, and there are at least as
many reaction cells as workers. -/
theorem createMapping_accepts_iff (s : MapState) (g : List Int) (h0 : 0 < s.nthreads) :
    (∃ s', createMapping s g = .ok (.ok, s')) ↔
      g.length = s.nxyz ∧ ∃ m : Nat, (∀ n : Int, 0 ≤ n → (n ∈ g ↔ n ≤ m)) ∧ s.nthreads ≤ m + 1 := by
  obtain ⟨hm0, hm1, hm2⟩ := maxLoop_spec g
  obtain ⟨back, hb, hbl, hbp⟩ := fill_of_max g
  constructor
  · rintro ⟨s', h⟩
    obtain ⟨hc, h1, h2, h3⟩ := createMapping_consistent s s' g h
    refine ⟨h3, s'.count - 1, ?_, ?_⟩
    · intro n hn
      have hpos : 0 < s'.count := by
        by_contra hz
        have := hc.ranges.1
        have hz' : s'.count = 0 := by omega
        have h4 := hc.count_max.2
        have h5 := hc.count_max.1
        have hp := hc.ranges
        rw [hz'] at hp
        obtain ⟨hl, hcon⟩ := hp
        cases hr : s'.ranges with
        | nil => rw [hr] at hl; simp at hl; omega
        | cons r rs =>
          rw [hr] at hcon
          have := hcon.2.2.le
          have e1 := hcon.1
          have e2 := hcon.2.1
          simp at this; omega
      constructor
      · intro hng
        have := hc.count_max.1 n hng
        omega
      · intro hle
        have hlt : n.toNat < s'.backward.length := by rw [hc.back_len]; omega
        obtain ⟨cells, hcells⟩ : ∃ c, s'.backward[n.toNat]? = some c :=
          ⟨_, List.getElem?_eq_getElem hlt⟩
        obtain ⟨hne, _, hmem⟩ := hc.back _ _ hcells
        obtain ⟨i, hi⟩ := List.exists_mem_of_ne_nil cells hne
        have := (hmem i).mp hi
        have e : ((n.toNat : Nat) : Int) = n := by omega
        rw [e] at this
        exact List.mem_of_getElem? this
    · have hp := hc.ranges
      have key : ∀ (rs : List (Int × Int)) (a b : Int), Contig a b rs → a + rs.length ≤ b := by
        intro rs
        induction rs with
        | nil => intro a b h; simp only [Contig] at h; simp; omega
        | cons r rs ih =>
          intro a b h
          have := ih _ _ h.2.2
          have e1 := h.1
          have e2 := h.2.1
          simp only [List.length_cons]; push_cast; omega
      have := key _ _ _ hp.2
      rw [hp.1] at this
      omega
  · rintro ⟨hlen, m, hmem, hth⟩
    have hmax : maxLoop g = m := by
      have hmg : (m : Int) ∈ g := (hmem m (by omega)).mpr (by omega)
      have h1 := hm1 _ hmg
      rcases hm2 with e | e
      · omega
      · have := (hmem _ hm0).mp e; omega
    have hcnt : (maxLoop g + 1).toNat = m + 1 := by omega
    have hany : back.any List.isEmpty = false := by
      rw [any_empty_iff hbl hbp]
      intro n hn
      exact (hmem n (by omega)).mpr (by omega)
    obtain ⟨rs, hrs, -⟩ := setEndCells_partition (maxLoop g + 1).toNat s.nthreads h0 (by omega)
    refine ⟨{ s with count := (maxLoop g + 1).toNat, forward := markLoop g back,
                     backward := back, ranges := rs }, ?_⟩
    unfold createMapping
    simp only [hlen, ne_eq, not_true_eq_false, if_false]
    rw [if_neg (by omega), hb]
    simp only [hany, Bool.false_eq_true, if_false, hrs, Out.ok_bind, Out.pure_eq]

/-- The right-hand side of C03 is met by a concrete vector, and it is not always met:
a gap and an all-negative vector are rejected. -/
example : (∃ s', createMapping fresh62 [1, 0, -1, 2, 0, 1] = .ok (.ok, s')) ∧
    (∃ s', createMapping fresh62 [0, 2, -1, 2, 0, 3] = .ok (.fail, s')) ∧
    (∃ s', createMapping fresh62 [-1, -1, -1, -1, -1, -1] = .ok (.fail, s')) :=
  ⟨⟨_, rfl⟩, ⟨_, rfl⟩, ⟨_, rfl⟩⟩

/-- The call never has undefined behaviour and always ends with `IRM_OK` or `IRM_FAIL`
when there is at least one worker. -/
theorem createMapping_total (s : MapState) (g : List Int) (h0 : 0 < s.nthreads) :
    ∃ r s', createMapping s g = .ok (r, s') ∧ (r = .ok ∨ r = .fail) := by
  obtain ⟨back, hb, hbl, hbp⟩ := fill_of_max g
  unfold createMapping
  split
  · exact ⟨_, _, rfl, .inr rfl⟩
  · simp only
    split
    · exact ⟨_, _, rfl, .inr rfl⟩
    · rw [hb]
      simp only
      split
      · exact ⟨_, _, rfl, .inr rfl⟩
      · simp only [setEndCells, Nat.ne_of_gt h0, if_false, Out.ok_bind, Out.pure_eq]
        exact ⟨_, _, rfl, .inl rfl⟩

example : 0 < fresh62.nthreads := by decide

/-- C04 at full strength: a rejected call leaves the module as it was. -/
def RejectedUnchanged : Prop :=
  ∀ (s s' : MapState) (g : List Int) (r : IRM),
    createMapping s g = .ok (r, s') → r ≠ .ok → s' = s

/-- C04 does not hold: a vector with a gap is rejected but the previous mapping is gone;
the module now reports 4 reaction cells, one of them without any grid cell. -/
theorem createMapping_rejected_unchanged_violated : ¬ RejectedUnchanged := by
  intro h
  have := h fresh62
    { nxyz := 6, nthreads := 2, count := 4, forward := [0, 1, 3, -1, -1, -1],
      backward := [[0, 5], [1], [], [2, 3, 4]], ranges := [(0, 2), (3, 5)] }
    [0, 1, 3, 3, 3, 0] .fail (by decide) (by decide)
  revert this
  decide

/-- C04, consequence of the violation: after a mapping rejected for having fewer cells
than workers, a worker still owns a reaction cell that has no backward mapping, so every
later getter that reads `backward_mapping[cell]` is out of bounds. -/
theorem createMapping_rejected_dangling :
    ∃ s', createMapping fresh62 [0, 0, 0, 0, 0, 0] = .ok (.fail, s') ∧
      Owns s'.ranges 0 1 ∧ s'.backward[1]? = none :=
  ⟨_, rfl, ⟨(0, 2), rfl, by decide, by decide⟩, rfl⟩

/-- C04, the part that holds: a vector of the wrong length is rejected before anything
is touched. Missing from the full statement: rejections for a gap in the numbers or for
too few reaction cells. -/
theorem createMapping_rejected_unchanged_partial (s : MapState) (g : List Int)
    (h : g.length ≠ s.nxyz) : createMapping s g = .ok (.fail, s) := by
  simp [createMapping, h]

example : [0, 1, 2].length ≠ fresh62.nxyz := by decide

/-- A fresh module has a consistent identity mapping, for every positive grid size and
every thread argument (with at least one processor). -/
theorem construct_consistent (nxyz ncpu : Nat) (threads : Int) (h : 0 < nxyz) (hc : 0 < ncpu) :
    ∃ s, construct nxyz threads ncpu = .ok s ∧ s.nxyz = nxyz ∧ 0 < s.nthreads ∧
      s.nthreads ≤ nxyz ∧ Consistent ((List.range nxyz).map (fun i : Nat => (i : Int))) s := by
  obtain ⟨n0, hn0⟩ : ∃ n0, n0 = (if threads > 0 then threads.toNat else ncpu) := ⟨_, rfl⟩
  have hn0p : 0 < n0 := by subst hn0; split <;> omega
  have hn : 0 < (if n0 < nxyz then n0 else nxyz) := by
    split <;> omega
  have hn2 : (if n0 < nxyz then n0 else nxyz) ≤ nxyz := by
    split <;> omega
  obtain ⟨rs, hrs, hp, -⟩ := setEndCells_partition nxyz _ hn hn2
  refine ⟨{
      nxyz := nxyz, nthreads := (if n0 < nxyz then n0 else nxyz), count := nxyz,
      forward := (List.range nxyz).map (fun i : Nat => (i : Int)),
      backward := (List.range nxyz).map (fun i => [i]), ranges := rs },
    by simp only [construct, ← hn0, hrs, Out.ok_bind, Out.pure_eq], rfl, hn, hn2, ?_⟩
  refine ⟨⟨?_, ?_⟩, by simp, ?_, by simp, ?_, ?_, ?_, hp⟩
  · intro x hx
    simp only [List.mem_map, List.mem_range] at hx
    simp only; omega
  · simp only [List.mem_map, List.mem_range]
    exact ⟨nxyz - 1, by omega, by omega⟩
  · intro n cells hcells
    simp only [List.getElem?_map, Option.map_eq_some_iff] at hcells
    obtain ⟨a, ha, hac⟩ := hcells
    have hlt : n < nxyz ∧ n = a := by
      by_cases hlt : n < nxyz
      · simp [hlt] at ha; exact ⟨hlt, ha⟩
      · simp [hlt] at ha
    subst hac
    obtain ⟨hlt, e⟩ := hlt
    subst e
    refine ⟨by simp, by simp, fun i => ?_⟩
    simp only [List.mem_singleton, List.getElem?_map, Option.map_eq_some_iff]
    constructor
    · intro e; subst e
      exact ⟨i, by simp [hlt], rfl⟩
    · rintro ⟨b, hb, hbn⟩
      by_cases hi : i < nxyz
      · simp [hi] at hb; omega
      · simp [hi] at hb
  · intro i n
    simp only [List.getElem?_map, Option.map_eq_some_iff]
    by_cases hi : i < nxyz
    · by_cases hnn : n < nxyz
      · simp [hi, hnn]; omega
      · simp [hi, hnn]; omega
    · by_cases hnn : n < nxyz
      · simp [hi, hnn]; omega
      · simp [hi, hnn]
  · intro i x hg hx
    simp only [List.getElem?_map, Option.map_eq_some_iff] at hg
    obtain ⟨a, _, ha⟩ := hg
    omega
  · intro i n cells hc hi hh
    simp only [List.getElem?_map, Option.map_eq_some_iff] at hc
    obtain ⟨a, _, ha⟩ := hc
    subst ha
    simp at hi hh
    omega

example : (0 : Nat) < 6 ∧ (0 : Nat) < 8 := by decide

/-- A module created with zero grid cells divides by zero. -/
theorem construct_zero_ub (threads : Int) (ncpu : Nat) : construct 0 threads ncpu = .ub := by
  simp [construct, setEndCells]

/-- Invariant over histories: starting from a fresh module, after any sequence of
successful `CreateMapping` calls the module describes the last vector consistently. -/
theorem createMapping_history (nxyz ncpu : Nat) (threads : Int) (h : 0 < nxyz) (hc : 0 < ncpu)
    (gs : List (List Int)) (s s' : MapState) (hs : construct nxyz threads ncpu = .ok s)
    (hrun : gs.foldlM (fun st g => match createMapping st g with
        | .ok (.ok, st') => some st' | _ => none) s = some s') :
    Consistent ((gs.getLast?).getD ((List.range nxyz).map (fun i : Nat => (i : Int)))) s' := by
  obtain ⟨s0, h0, -, -, -, hcon⟩ := construct_consistent nxyz ncpu threads h hc
  rw [hs] at h0
  simp only [Out.ok.injEq] at h0
  subst h0
  have key : ∀ (gs : List (List Int)) (d : List Int) (s s' : MapState), Consistent d s →
      gs.foldlM (fun st g => match createMapping st g with
        | .ok (.ok, st') => some st' | _ => none) s = some s' →
      Consistent ((gs.getLast?).getD d) s' := by
    intro gs
    induction gs with
    | nil => intro d s s' hd hr; simp at hr; subst hr; simpa using hd
    | cons g gs ih =>
      intro d s s' hd hr
      simp only [List.foldlM_cons] at hr
      cases hcm : createMapping s g with
      | throw => rw [hcm] at hr; simp at hr
      | ub => rw [hcm] at hr; simp at hr
      | ok p =>
        obtain ⟨r, s1⟩ := p
        rw [hcm] at hr
        cases r with
        | ok =>
          simp only [Option.bind_eq_bind, Option.bind_some] at hr
          have h1 := (createMapping_consistent s s1 g hcm).1
          have := ih g s1 s' h1 hr
          cases gs with
          | nil => simpa using this
          | cons a as =>
            rw [List.getLast?_cons_cons]
            have e : (a :: as).getLast? = some ((a :: as).getLast (by simp)) :=
              List.getLast?_eq_some_getLast _
            rw [e] at this ⊢
            exact this
        | _ => simp at hr
  exact key gs _ s s' hcon hrun

example : [[0, 1, 0, -7, 2, 1], [0, 0, 1, 1, 2, 2]].foldlM (fun st g =>
    match createMapping st g with | .ok (.ok, st') => some st' | _ => none) fresh62 =
    some { nxyz := 6, nthreads := 2, count := 3, forward := [0, -1, 1, -1, 2, -1],
           backward := [[0, 1], [2, 3], [4, 5]], ranges := [(0, 1), (2, 2)] } := by decide

end Verif.Mapping
