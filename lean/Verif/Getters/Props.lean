import Verif.Getters.Lemmas
import Mathlib.Data.List.Nodup

/-! # What the one-value-per-cell getters return (C17, C67, C68, C69) -/

namespace Verif.Getters

open Verif.Mapping Verif.Grid Verif.Ranges

/-- A module with a consistent mapping in which every reaction cell has its solution. -/
structure Ready (g : List Int) (s : GState) : Prop where
  con  : Consistent g s.map
  glen : g.length = s.map.nxyz
  sols : ∀ n j, Owns s.map.ranges n j → ∃ x, s.sol n j = some x

/-- The array `c` holds `val` of the solution of the reaction cell in every grid cell mapped to
it, and has one entry per grid cell. -/
def Mapped {α : Type} (g : List Int) (s : GState) (val : Soln → Nat → α) (c : List α) : Prop :=
  c.length = s.map.nxyz ∧
  ∀ (i : Nat) (j : Int) n x, g[i]? = some j → Owns s.map.ranges n j → s.sol n j = some x →
    c[i]? = some (val x i)

/-- The array `c` marks every unmapped grid cell. -/
def MarksInactive {α : Type} (g : List Int) (mark : α) (c : List α) : Prop :=
  ∀ (i : Nat) (j : Int), g[i]? = some j → j < 0 → c[i]? = some mark

/-- C17 as stated, for the density getter. -/
def DensityInactive : Prop :=
  ∀ (g : List Int) (s : GState) (v : List ℚ), Ready g s → ∃ c,
    getDensityCalculated s v = .ok (.ok, c) ∧ MarksInactive g inactive c

/-- C17, the part that holds for the density: mapped cells get the calculated density; an
unmapped cell gets the inactive value if the caller's vector was too short to reach it, and
otherwise keeps what the caller had there. Missing: the inactive value in the second case, see
`density_inactive_violated`. -/
theorem density_inactive_partial {g : List Int} {s : GState} (hr : Ready g s) (v : List ℚ) :
    ∃ c, getDensityCalculated s v = .ok (.ok, c) ∧ Mapped g s (fun x _ => x.density) c ∧
      (∀ i j, g[i]? = some j → j < 0 → (v.length ≤ i → c[i]? = some inactive) ∧
        (i < v.length → c[i]? = v[i]?)) := by
  obtain ⟨c, h1, h2, h3⟩ := scan_grid hr.con hr.glen .stop s.sol (fun _ => hr.sols)
    (fun x _ => .ok x.density) (fun x _ => x.density) (fun _ _ _ _ _ _ _ => rfl)
    (resize v s.map.nxyz inactive) (length_resize _ _ _)
  refine ⟨c, ?_, ⟨h2, fun i j n x hij ho hx => ((h3 i j hij).2 n ho).1 x hx⟩,
    fun i j hij hj => ?_⟩
  · simp only [getDensityCalculated, h1, Out.ok_bind]
  · have hi : i < s.map.nxyz := by
      rw [← hr.glen]; exact (List.getElem?_eq_some_iff.mp hij).1
    rw [(h3 i j hij).1 hj, getElem?_resize _ _ _ _ hi]
    exact ⟨fun h => by rw [if_neg (by omega)], fun h => by rw [if_pos h]⟩

/-- In particular an empty vector comes back with every unmapped cell marked. -/
theorem density_inactive_empty {g : List Int} {s : GState} (hr : Ready g s) :
    ∃ c, getDensityCalculated s [] = .ok (.ok, c) ∧ Mapped g s (fun x _ => x.density) c ∧
      MarksInactive g inactive c := by
  obtain ⟨c, h1, h2, h3⟩ := density_inactive_partial hr []
  exact ⟨c, h1, h2, fun i j hij hj => (h3 i j hij hj).1 (Nat.zero_le _)⟩

/-- C17 for the saturation getter: mapped cells get volume over (representative volume times
porosity) of the grid cell itself; unmapped cells as for the density. -/
theorem saturation_inactive_partial {g : List Int} {s : GState} (hr : Ready g s)
    (hpl : s.por.length = s.map.nxyz) (hrl : s.rv.length = s.map.nxyz)
    (hp : ∀ x ∈ s.por, 0 < x) (hrv : ∀ x ∈ s.rv, 0 < x) (v : List (Option ℚ)) :
    ∃ c, getSaturationCalculated s v = .ok (.ok, c) ∧ c.length = s.map.nxyz ∧
      (∀ (i : Nat) (j : Int) n x r p, g[i]? = some j → Owns s.map.ranges n j → s.sol n j = some x →
        s.rv[i]? = some r → s.por[i]? = some p →
        ∃ q, c[i]? = some (some q) ∧ q * (r * p) = x.solnVol) ∧
      (∀ i j, g[i]? = some j → j < 0 → (v.length ≤ i → c[i]? = some (some inactive)) ∧
        (i < v.length → c[i]? = v[i]?)) := by
  obtain ⟨c, h1, h2, h3⟩ := scan_grid hr.con hr.glen .stop s.sol (fun _ => hr.sols)
    (satValue s) (fun x i => some (x.solnVol / ((s.rv[i]?).getD 0 * (s.por[i]?).getD 0)))
    (fun n j x i ho hx hij => by
      have hi : i < s.map.nxyz := by
        rw [← hr.glen]; exact (List.getElem?_eq_some_iff.mp hij).1
      have e1 : s.rv[i]? = some (s.rv[i]'(by omega)) := List.getElem?_eq_getElem _
      have e2 : s.por[i]? = some (s.por[i]'(by omega)) := List.getElem?_eq_getElem _
      have p1 := hrv _ (List.mem_of_getElem? e1)
      have p2 := hp _ (List.mem_of_getElem? e2)
      have hne : ¬ s.rv[i]'(by omega) * s.por[i]'(by omega) = 0 := ne_of_gt (mul_pos p1 p2)
      simp only [satValue, idx_nat e1, idx_nat e2, Out.ok_bind, hne, if_false]
      rw [e1, e2]
      rfl)
    (resize v s.map.nxyz (some inactive)) (length_resize _ _ _)
  refine ⟨c, ?_, h2, fun i j n x r p hij ho hx hr' hp' => ?_, fun i j hij hj => ?_⟩
  · simp only [getSaturationCalculated, h1, Out.ok_bind, if_true]
  · refine ⟨x.solnVol / (r * p), ?_, ?_⟩
    · rw [((h3 i j hij).2 n ho).1 x hx, hr', hp']; rfl
    · have p1 := hrv _ (List.mem_of_getElem? hr')
      have p2 := hp _ (List.mem_of_getElem? hp')
      exact div_mul_cancel₀ _ (ne_of_gt (mul_pos p1 p2))
  · have hi : i < s.map.nxyz := by
      rw [← hr.glen]; exact (List.getElem?_eq_some_iff.mp hij).1
    rw [(h3 i j hij).1 hj, getElem?_resize _ _ _ _ hi]
    exact ⟨fun h => by rw [if_neg (by omega)], fun h => by rw [if_pos h]⟩

/-! ## Witness -/

/-- Two grid cells, the second inactive. -/
def demo (sol : Nat → Int → Option Soln) : GState :=
  { map := { nxyz := 2, nthreads := 1, count := 1, forward := [0, -1], backward := [[0]],
             ranges := [(0, 0)] },
    por := [1 / 4, 1 / 4], rv := [2, 2], sol := sol }

/-- The solution of the witness. -/
def demoSol : Nat → Int → Option Soln := fun n j =>
  if n = 0 ∧ j = 0 then some ⟨1, 3 / 8, 1, 25, 1, []⟩ else none

theorem demo_consistent (sol : Nat → Int → Option Soln) : Consistent [0, -1] (demo sol).map := by
  refine ⟨⟨by simp [demo], by simp [demo]⟩, rfl, ?_, rfl, ?_, ?_, ?_, ⟨rfl, by simp [demo, Contig]⟩⟩
  · intro n cells h
    match n with
    | 0 =>
      simp [demo] at h; subst h
      refine ⟨by simp, by decide, fun i => ?_⟩
      match i with
      | 0 => simp
      | 1 => simp
      | i + 2 => simp
    | n + 1 => simp [demo] at h
  · intro i n
    match i, n with
    | 0, 0 => simp [demo]
    | 0, n + 1 => simp [demo]; omega
    | 1, n => cases n <;> (simp [demo]; try omega)
    | i + 2, n => cases n <;> simp [demo]
  · intro i x h hx
    match i with
    | 0 => simp at h; omega
    | 1 => simp at h; subst h; rfl
    | i + 2 => simp at h
  · intro i n cells h hi hne
    match n with
    | 0 => simp [demo] at h; subst h; simp at hi; subst hi; simp at hne
    | n + 1 => simp [demo] at h

theorem demo_ready : Ready [0, -1] (demo demoSol) where
  con := demo_consistent _
  glen := rfl
  sols := by
    rintro n j ⟨r, hr, h1, h2⟩
    match n with
    | 0 =>
      simp [demo] at hr; subst hr
      have : j = 0 := by simp at h1 h2; omega
      subst this
      exact ⟨_, rfl⟩
    | n + 1 => simp [demo] at hr

/-- C17 is violated: a vector passed in keeps its entry for an unmapped cell. -/
theorem density_inactive_violated : ¬ DensityInactive := by
  intro h
  obtain ⟨c, h1, h2⟩ := h [0, -1] (demo demoSol) [5, 7] demo_ready
  have hc := h2 1 (-1) rfl (by omega)
  have key : (match getDensityCalculated (demo demoSol) [5, 7] with
      | .ok r => decide (r.2[1]? = some inactive)
      | _ => true) = false := by decide +kernel
  rw [h1] at key
  simp [hc] at key

/-- C67 as stated: a reaction cell without a solution is reported by a code other than OK. -/
def DensityReportsMissing : Prop :=
  ∀ (g : List Int) (s : GState) (v : List ℚ), Consistent g s.map → g.length = s.map.nxyz →
    (∃ n j, Owns s.map.ranges n j ∧ s.sol n j = none) →
    ∀ r, getDensityCalculated s v = .ok r → r.1 ≠ .ok

/-- C67 is violated: the failure code is dropped. -/
theorem density_reports_missing_violated : ¬ DensityReportsMissing := by
  intro h
  have hrun : getDensityCalculated (demo (fun _ _ => none)) [] = .ok (.ok, [inactive, inactive]) := by
    decide +kernel
  exact h [0, -1] (demo (fun _ _ => none)) [] (demo_consistent _) rfl
    ⟨0, 0, ⟨(0, 0), rfl, by simp⟩, rfl⟩ _ hrun rfl

/-- In fact the density getter never returns anything but OK. -/
theorem density_always_ok (s : GState) (v : List ℚ) (r : IRM × List ℚ)
    (h : getDensityCalculated s v = .ok r) : r.1 = .ok := by
  unfold getDensityCalculated at h
  cases hs : scan .stop s.map.backward s.sol (fun x _ => Out.ok x.density)
    (ownedCells s.map.ranges) (resize v s.map.nxyz inactive) with
  | ok a => rw [hs] at h; simp at h; rw [← h]
  | throw => rw [hs] at h; simp at h
  | ub => rw [hs] at h; simp at h

/-- C67, what the saturation getter gives instead: the code is always OK, and a missing solution
shows as an empty vector. -/
theorem saturation_missing_empty (s : GState) (v : List (Option ℚ)) (r : IRM × List (Option ℚ))
    (hmiss : ∃ n j, Owns s.map.ranges n j ∧ s.sol n j = none)
    (h : getSaturationCalculated s v = .ok r) : r.1 = .ok ∧ r.2 = [] := by
  have gen : ∀ (ps : List (Nat × Int)) (c : List (Option ℚ)) q,
      (∃ p ∈ ps, s.sol p.1 p.2 = none) →
      scan .stop s.map.backward s.sol (satValue s) ps c = .ok q → q.2 = false := by
    intro ps
    induction ps with
    | nil => intro c q ⟨p, hp, _⟩; simp at hp
    | cons p ps ih =>
      intro c q ⟨p', hp', hx'⟩ hs
      obtain ⟨n, j⟩ := p
      cases hx : s.sol n j with
      | none => simp only [scan, hx, Out.ok.injEq] at hs; rw [← hs]
      | some x =>
        simp only [scan, hx] at hs
        cases hi : idx s.map.backward j with
        | ok cells =>
          rw [hi] at hs
          simp only [Out.ok_bind] at hs
          cases hpc : putCells (satValue s x) cells c with
          | ok c' =>
            rw [hpc] at hs
            simp only [Out.ok_bind] at hs
            refine ih c' q ?_ hs
            rcases List.mem_cons.mp hp' with rfl | hm
            · simp [hx] at hx'
            · exact ⟨p', hm, hx'⟩
          | throw => rw [hpc] at hs; simp at hs
          | ub => rw [hpc] at hs; simp at hs
        | throw => rw [hi] at hs; simp at hs
        | ub => rw [hi] at hs; simp at hs
  obtain ⟨n, j, ho, hx⟩ := hmiss
  unfold getSaturationCalculated at h
  cases hs : scan .stop s.map.backward s.sol (satValue s) (ownedCells s.map.ranges)
      (resize v s.map.nxyz (some inactive)) with
  | ok q =>
    have := gen _ _ _ ⟨(n, j), (mem_ownedCells _ _ _).mpr ho, hx⟩ hs
    rw [hs] at h
    simp only [Out.ok_bind, this, Bool.false_eq_true, if_false, Out.ok.injEq] at h
    rw [← h]
    exact ⟨rfl, rfl⟩
  | throw => rw [hs] at h; simp at h
  | ub => rw [hs] at h; simp at h

/-! ## Getters filling a vector of the module (C68) -/

/-- C68 as stated, for the viscosity, right after construction: unmapped cells are marked. The
constructor fills the vector with ones. -/
def ViscosityInactive : Prop :=
  ∀ (g : List Int) (s : GState), Ready g s → ∃ c,
    getViscosity s (List.replicate s.map.nxyz 1) = .ok c ∧ MarksInactive g inactive c

/-- C68 is violated. -/
theorem viscosity_inactive_violated : ¬ ViscosityInactive := by
  intro h
  obtain ⟨c, h1, h2⟩ := h [0, -1] (demo demoSol) demo_ready
  have hc := h2 1 (-1) rfl (by omega)
  have key : (match getViscosity (demo demoSol) (List.replicate 2 1) with
      | .ok r => decide (r[1]? = some inactive)
      | _ => true) = false := by decide +kernel
  have h1' : getViscosity (demo demoSol) (List.replicate 2 1) = .ok c := h1
  rw [h1'] at key
  simp [hc] at key

theorem fill_partial {g : List Int} {s : GState} (hr : Ready g s) (miss : Missing)
    (val : Soln → ℚ) (root : List ℚ) :
    ∃ c, (do
        let r ← scan miss s.map.backward s.sol (fun x _ => .ok (val x)) (ownedCells s.map.ranges)
          (resize root s.map.nxyz inactive)
        Out.ok r.1) = .ok c ∧ Mapped g s (fun x _ => val x) c ∧
      (root = [] → MarksInactive g inactive c) ∧
      (∀ i j, g[i]? = some j → j < 0 → i < root.length → c[i]? = root[i]?) := by
  obtain ⟨c, h1, h2, h3⟩ := scan_grid hr.con hr.glen miss s.sol (fun _ => hr.sols)
    (fun x _ => .ok (val x)) (fun x _ => val x) (fun _ _ _ _ _ _ _ => rfl)
    (resize root s.map.nxyz inactive) (length_resize _ _ _)
  refine ⟨c, ?_, ⟨h2, fun i j n x hij ho hx => ((h3 i j hij).2 n ho).1 x hx⟩,
    fun hroot i j hij hj => ?_, fun i j hij hj hl => ?_⟩
  · simp only [h1, Out.ok_bind]
  · have hi : i < s.map.nxyz := by
      rw [← hr.glen]; exact (List.getElem?_eq_some_iff.mp hij).1
    rw [(h3 i j hij).1 hj, getElem?_resize _ _ _ _ hi, hroot]; simp
  · have hi : i < s.map.nxyz := by
      rw [← hr.glen]; exact (List.getElem?_eq_some_iff.mp hij).1
    rw [(h3 i j hij).1 hj, getElem?_resize _ _ _ _ hi, if_pos hl]

/-- C68, the part that holds for pressure, temperature, solution volume and viscosity: all grid
cells of a reaction cell get that cell's value; unmapped cells are marked when the module's
vector was empty and keep their former value otherwise. Missing: the mark in the second case. -/
theorem fill_inactive_partial {g : List Int} {s : GState} (hr : Ready g s) (root : List ℚ) :
    (∃ c, getPressure s root = .ok c ∧ Mapped g s (fun x _ => x.patm) c ∧
      (root = [] → MarksInactive g inactive c) ∧
      (∀ i j, g[i]? = some j → j < 0 → i < root.length → c[i]? = root[i]?)) ∧
    (∃ c, getTemperature s root = .ok c ∧ Mapped g s (fun x _ => x.tc) c ∧
      (root = [] → MarksInactive g inactive c) ∧
      (∀ i j, g[i]? = some j → j < 0 → i < root.length → c[i]? = root[i]?)) ∧
    (∃ c, getSolutionVolume s root = .ok c ∧ Mapped g s (fun x _ => x.solnVol) c ∧
      (root = [] → MarksInactive g inactive c) ∧
      (∀ i j, g[i]? = some j → j < 0 → i < root.length → c[i]? = root[i]?)) ∧
    (∃ c, getViscosity s root = .ok c ∧ Mapped g s (fun x _ => x.viscosity) c ∧
      (root = [] → MarksInactive g inactive c) ∧
      (∀ i j, g[i]? = some j → j < 0 → i < root.length → c[i]? = root[i]?)) :=
  ⟨fill_partial hr .skip _ root, fill_partial hr .skip _ root, fill_partial hr .crash _ root,
    fill_partial hr .crash _ root⟩

/-! ## Species (C69) -/

/-- Amount of species number `k` in a solution; zero if absent. -/
def Amount (sp : List (Int × ℚ)) (k : Int) (a : ℚ) : Prop :=
  (k, a) ∈ sp ∨ (a = 0 ∧ ∀ p ∈ sp, p.1 ≠ k)

/-- C69 as stated: entry `r` of a cell is the amount of the species whose number is stored for
`r`. -/
def SpeciesRight (nsp : Nat) (m : List (Int × Nat)) (sp : List (Int × ℚ)) : Prop :=
  ∃ d, speciesRow nsp m sp = .ok d ∧ d.length = nsp ∧
    ∀ k r, (k, r) ∈ m → ∃ a, Amount sp k a ∧ d[r]? = some a

/-- The table of species numbers made by `FindComponents`: species `r` gets one number, every
`r` is below the number of names. -/
structure GoodTable (nsp : Nat) (m : List (Int × Nat)) : Prop where
  keys : (m.map Prod.fst).Nodup
  vals : (m.map Prod.snd).Nodup
  lt   : ∀ p ∈ m, p.2 < nsp

theorem lookup_of_mem : ∀ {m : List (Int × Nat)} {k : Int} {r : Nat}, (m.map Prod.fst).Nodup →
    (k, r) ∈ m → m.lookup k = some r
  | (k', r') :: m, k, r, hn, hm => by
    rw [List.map_cons, List.nodup_cons] at hn
    rcases List.mem_cons.mp hm with h | h
    · simp only [Prod.mk.injEq] at h
      obtain ⟨rfl, rfl⟩ := h
      simp [List.lookup]
    · have hne : k ≠ k' := by
        rintro rfl
        exact hn.1 (List.mem_map.mpr ⟨(k, r), h, rfl⟩)
      have : (k == k') = false := by simpa using hne
      simp only [List.lookup, this]
      exact lookup_of_mem hn.2 h

/-- C69, the part that holds: when every species of the solution is in the table, each entry is
the amount of its own species, zero where the solution lacks it. Missing: solutions with a
species outside the table, see `species_right_violated`. -/
theorem species_right_partial {nsp : Nat} {m : List (Int × Nat)} (hm : GoodTable nsp m)
    (sp : List (Int × ℚ)) (hsp : (sp.map Prod.fst).Nodup)
    (hin : ∀ p ∈ sp, ∃ r, (p.1, r) ∈ m) : SpeciesRight nsp m sp := by
  have gen : ∀ (sp done : List (Int × ℚ)) (d : List ℚ), d.length = nsp →
      ((done ++ sp).map Prod.fst).Nodup → (∀ p ∈ sp, ∃ r, (p.1, r) ∈ m) →
      (∀ k r, (k, r) ∈ m → ∃ a, Amount done k a ∧ d[r]? = some a) →
      ∃ d', sp.foldlM (fun d p =>
          if rmSpecies m p.1 < d.length then Out.ok (d.set (rmSpecies m p.1) p.2) else .ub) d
          = .ok d' ∧ d'.length = nsp ∧
        ∀ k r, (k, r) ∈ m → ∃ a, Amount (done ++ sp) k a ∧ d'[r]? = some a := by
    intro sp
    induction sp with
    | nil => intro done d hl _ _ hd; exact ⟨d, rfl, hl, by simpa using hd⟩
    | cons p sp ih =>
      intro done d hl hn hin hd
      obtain ⟨k0, a0⟩ := p
      obtain ⟨r0, hr0⟩ := hin (k0, a0) List.mem_cons_self
      simp only at hr0
      have hrm : rmSpecies m k0 = r0 := by
        unfold rmSpecies; rw [lookup_of_mem hm.keys hr0]
      have hlt : r0 < d.length := by rw [hl]; exact hm.lt _ hr0
      have hsnoc : done ++ (k0, a0) :: sp = (done ++ [(k0, a0)]) ++ sp := by simp
      obtain ⟨d', h1, h2, h3⟩ := ih (done ++ [(k0, a0)]) (d.set r0 a0) (by simpa using hl)
        (by rw [← hsnoc]; exact hn) (fun p hp => hin p (List.mem_cons_of_mem _ hp)) (by
          intro k r hkr
          by_cases hk : k = k0
          · subst hk
            have : r = r0 := by
              have e1 := lookup_of_mem hm.keys hkr
              have e2 := lookup_of_mem hm.keys hr0
              rw [e1] at e2
              simpa using e2
            subst this
            exact ⟨a0, Or.inl (by simp), by simp [hlt]⟩
          · obtain ⟨a, ha, hda⟩ := hd k r hkr
            refine ⟨a, ?_, ?_⟩
            · rcases ha with ha | ⟨ha, hno⟩
              · exact Or.inl (List.mem_append_left _ ha)
              · refine Or.inr ⟨ha, fun p hp => ?_⟩
                rcases List.mem_append.mp hp with hp | hp
                · exact hno p hp
                · simp only [List.mem_singleton] at hp
                  subst hp
                  exact fun h => hk h.symm
            · have hrr : r0 ≠ r := by
                rintro rfl
                have := List.inj_on_of_nodup_map hm.vals hkr hr0 rfl
                simp only [Prod.mk.injEq] at this
                exact hk this.1
              rw [List.getElem?_set_ne hrr]
              exact hda)
      refine ⟨d', ?_, h2, ?_⟩
      · rw [List.foldlM_cons]
        simp only [hrm, hlt, if_true, Out.ok_bind]
        exact h1
      · rw [hsnoc]; exact h3
  obtain ⟨d, h1, h2, h3⟩ := gen sp [] (List.replicate nsp 0) (by simp) (by simpa using hsp) hin
    (fun k r hkr => ⟨0, Or.inr ⟨rfl, by simp⟩, by
      rw [List.getElem?_replicate, if_pos (hm.lt _ hkr)]⟩)
  exact ⟨d, h1, h2, by simpa using h3⟩

/-- C69 for the whole array: with species saving on and every species of every solution in the
table, each grid cell of a reaction cell gets the amounts of that cell's solution; unmapped cells
get 0 when the caller's vector was empty. -/
theorem getSpecies_partial {g : List Int} {s : GState} (hr : Ready g s) {nsp : Nat}
    {m : List (Int × Nat)} (hm : GoodTable nsp m)
    (hs : ∀ n j x, Owns s.map.ranges n j → s.sol n j = some x →
      (x.species.map Prod.fst).Nodup ∧ ∀ p ∈ x.species, ∃ r, (p.1, r) ∈ m) (v : List ℚ) :
    ∃ c, getSpecies s true nsp m v = .ok c ∧ c.length = s.map.nxyz * nsp ∧
      (∀ (i : Nat) (j : Int) n x k r, g[i]? = some j → Owns s.map.ranges n j →
        s.sol n j = some x → (k, r) ∈ m →
        ∃ a, Amount x.species k a ∧ c[s.map.nxyz * r + i]? = some a) ∧
      (v = [] → ∀ (i : Nat) (j : Int) r, g[i]? = some j → j < 0 → r < nsp →
        c[s.map.nxyz * r + i]? = some 0) := by
  have hD : ∀ j : Int, ∃ d : List ℚ, ∀ n x, Owns s.map.ranges n j → s.sol n j = some x →
      speciesRow nsp m x.species = .ok d ∧ d.length = nsp ∧
        ∀ k r, (k, r) ∈ m → ∃ a, Amount x.species k a ∧ d[r]? = some a := by
    intro j
    by_cases h : ∃ n x, Owns s.map.ranges n j ∧ s.sol n j = some x
    · obtain ⟨n, x, ho, hx⟩ := h
      obtain ⟨d, h1, h2, h3⟩ := species_right_partial hm x.species (hs n j x ho hx).1
        (hs n j x ho hx).2
      refine ⟨d, fun n' x' ho' hx' => ?_⟩
      have := hr.con.ranges.2.owner_unique ho ho'
      subst this
      rw [hx] at hx'
      simp only [Option.some.injEq] at hx'
      subst hx'
      exact ⟨h1, h2, h3⟩
    · exact ⟨[], fun n x ho hx => absurd ⟨n, x, ho, hx⟩ h⟩
  obtain ⟨D, hD⟩ := Classical.axiomOfChoice hD
  obtain ⟨c, h1, h2, h3⟩ := getGrid_spec hr.con hr.glen nsp (resize v (nsp * s.map.nxyz) 0)
    (by rw [length_resize, Nat.mul_comm])
    (fun n j => match s.sol n j with
      | none => .ub
      | some x => speciesRow nsp m x.species) D (by
      intro n j ho
      obtain ⟨x, hx⟩ := hr.sols n j ho
      obtain ⟨e1, e2, _⟩ := hD j n x ho hx
      simp only [hx]
      exact ⟨e1, e2⟩)
  refine ⟨c, by simp only [getSpecies, if_true]; exact h1, h2,
    fun i j n x k r hij ho hx hkr => ?_, fun hv i j r hij hj hrn => ?_⟩
  · obtain ⟨_, _, e3⟩ := hD j n x ho hx
    obtain ⟨a, ha, hd⟩ := e3 k r hkr
    exact ⟨a, ha, by
      rw [(h3 i r j (hm.lt _ hkr) hij).2 (hr.con.ranges.2.owns_bounds ho).1]; exact hd⟩
  · have hi : i < s.map.nxyz := by
      rw [← hr.glen]; exact (List.getElem?_eq_some_iff.mp hij).1
    have hlt : s.map.nxyz * r + i < nsp * s.map.nxyz := by
      calc s.map.nxyz * r + i < s.map.nxyz * r + s.map.nxyz := by omega
        _ = s.map.nxyz * (r + 1) := by rw [Nat.mul_succ]
        _ ≤ s.map.nxyz * nsp := Nat.mul_le_mul_left _ hrn
        _ = nsp * s.map.nxyz := Nat.mul_comm _ _
    rw [(h3 i r j hrn hij).1 hj, getElem?_resize _ _ _ _ hlt, hv]
    simp

/-- C69 is violated: a species that is not in the table overwrites the first species. Here
species numbers 7 and 9 are in the table, and the solution also holds number 8. -/
theorem species_right_violated :
    GoodTable 2 [(7, 0), (9, 1)] ∧ ¬ SpeciesRight 2 [(7, 0), (9, 1)] [(7, 1), (8, 5)] := by
  refine ⟨⟨by decide, by decide, by decide⟩, ?_⟩
  rintro ⟨d, h1, _, h3⟩
  obtain ⟨a, ha, hd⟩ := h3 7 0 (by simp)
  have key : speciesRow 2 [(7, 0), (9, 1)] [(7, 1), (8, 5)] = .ok [5, 0] := by decide +kernel
  rw [h1] at key
  simp only [Out.ok.injEq] at key
  subst key
  simp at hd
  subst hd
  rcases ha with ha | ⟨ha, _⟩
  · revert ha; decide +kernel
  · revert ha; decide +kernel

/-- A solution with both table species, in another order than the table. -/
example : speciesRow 3 [(7, 2), (9, 0), (4, 1)] [(4, 5), (7, 1)] = .ok [0, 5, 1] := by
  decide +kernel

end Verif.Getters
