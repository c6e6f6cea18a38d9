import Verif.Species.Model
import Verif.Conc.Set

/-! # C115: element amounts from species concentrations -/

namespace Verif.Species

open Verif.OMap Verif.NameDouble Verif.Mapping Verif.Grid Verif.Ranges Verif.Conc

/-! ## Specification -/

/-- A module with species: consistent mapping, arrays of the documented sizes, formulas that are
ordered maps with plain element names. -/
structure Ready (g : List Int) (s : SState) : Prop where
  con    : Consistent g s.map
  glen   : g.length = s.map.nxyz
  porl   : s.por.length = s.map.nxyz
  satl   : s.sat.length = s.map.nxyz
  rvl    : s.rv.length = s.map.nxyz
  names  : ∀ n ∈ s.comps, ∀ c ∈ n, '(' < c
  sorted : ∀ st ∈ s.stoich, Sorted st
  plain  : ∀ st ∈ s.stoich, ∀ p ∈ st, ∀ c ∈ p.1, '(' < c

/-- Amount of `e` in one litre: for every species its concentration times the coefficient of `e`
in its formula. -/
def content (l : List (ND × ℚ)) (e : Name) : ℚ := (l.map (fun p => p.2 * val p.1 e)).sum

/-- The species of the module with their concentrations in grid cell `i`. -/
def At (s : SState) (c : List ℚ) (i : Nat) (l : List (ND × ℚ)) : Prop :=
  l.map Prod.fst = s.stoich ∧ ∀ (k : Nat) (v : ℚ), (l.map Prod.snd)[k]? = some v →
    c[k * s.map.nxyz + i]? = some v

/-- The solution `x'` holds what the species `l` contain in a volume `vol`. Amounts of elements
below 1e-25 mol are stored as zero. -/
structure Contains (l : List (ND × ℚ)) (vol : ℚ) (x x' : Soln) : Prop where
  hydrogen  : x'.totalH = content l "H".toList * vol
  oxygen    : x'.totalO = content l "O".toList * vol
  charge    : x'.cb = content l "Charge".toList * vol
  elem      : ∀ e, e ≠ "H".toList → e ≠ "O".toList → e ≠ "Charge".toList →
    val x'.totals e = if content l e * vol < 1 / 10 ^ 25 then 0 else content l e * vol
  massWater : x'.massWater * (111 / 2) = x'.totalO
  vol       : x'.solnVol = x.solnVol
  density   : x'.density = x.density

/-- The names that stay in the totals. -/
def Keep (n : Name) : Prop := n ≠ "H".toList ∧ n ≠ "O".toList ∧ n ≠ "Charge".toList

/-! ## Lemmas -/

theorem add_eq_addEntry (m : ND) (q : Name × ℚ) (c : ℚ) :
    add m q.1 (q.2 * c) = addEntry c m q := rfl

theorem add_one (m : ND) (p : Name × ℚ) : add m p.1 p.2 = addEntry 1 m p := by
  unfold add addEntry
  rw [mul_one]

theorem zeros_spec (comps : List Name) : ∀ (m : ND), Sorted m → (∀ k, val m k = 0) →
    Sorted (comps.foldl (fun m n => add m n 0) m) ∧
    (∀ k, val (comps.foldl (fun m n => add m n 0) m) k = 0) ∧
    ∀ k, k ∈ keys (comps.foldl (fun m n => add m n 0) m) ↔ k ∈ keys m ∨ k ∈ comps := by
  induction comps with
  | nil => intro m hs hv; exact ⟨hs, hv, by simp⟩
  | cons n comps ih =>
    intro m hs hv
    have e : add m n 0 = addEntry 1 m (n, 0) := add_one m (n, 0)
    obtain ⟨a, b, c⟩ := ih (add m n 0) (by rw [e]; exact sorted_addEntry _ hs _) (fun k => by
      rw [e, val_addEntry]
      split_ifs <;> simp [hv])
    refine ⟨a, b, fun k => ?_⟩
    rw [List.foldl_cons, c, e, keys_addEntry, List.mem_cons]
    tauto

theorem foldl_sorted (f : ℚ) (a : ND) : ∀ m : ND, Sorted m → Sorted (a.foldl (addEntry f) m) := by
  induction a with
  | nil => exact fun m h => h
  | cons p a ih => exact fun m h => ih _ (sorted_addEntry f h p)

theorem foldl_keys (f : ℚ) (a : ND) (k : Name) : ∀ m : ND,
    k ∈ keys (a.foldl (addEntry f) m) ↔ k ∈ keys m ∨ k ∈ keys a := by
  induction a with
  | nil => intro m; simp [keys]
  | cons p a ih =>
    intro m
    rw [List.foldl_cons, ih, keys_addEntry]
    simp only [keys, List.map_cons, List.mem_cons]
    tauto

theorem sumUp_spec (l : List (ND × ℚ)) (hl : ∀ p ∈ l, Sorted p.1) : ∀ m : ND, Sorted m →
    Sorted (sumUp m l) ∧ (∀ e, val (sumUp m l) e = val m e + content l e) ∧
    ∀ k, k ∈ keys (sumUp m l) ↔ k ∈ keys m ∨ ∃ p ∈ l, k ∈ keys p.1 := by
  induction l with
  | nil => intro m hs; exact ⟨hs, by simp [sumUp, content], by simp [sumUp]⟩
  | cons p l ih =>
    intro m hs
    have e : sumUp m (p :: l) = sumUp (p.1.foldl (addEntry p.2) m) l := rfl
    obtain ⟨a, b, c⟩ := ih (fun q hq => hl q (List.mem_cons_of_mem _ hq))
      (p.1.foldl (addEntry p.2) m) (foldl_sorted _ _ _ hs)
    rw [e]
    refine ⟨a, fun e' => ?_, fun k => ?_⟩
    · rw [b, val_foldl_addEntry _ _ _ (hl p List.mem_cons_self)]
      simp only [content, List.map_cons, List.sum_cons]
      ring
    · rw [c, foldl_keys]
      simp only [List.mem_cons, exists_eq_or_imp]
      tauto

theorem pick_val (m : ND) (n : String) : pick m n = val m n.toList := rfl

theorem val_mapval (m : ND) (f : ℚ → ℚ) (h0 : f 0 = 0) (e : Name) :
    val (m.map (fun p => (p.1, f p.2))) e = f (val m e) := by
  unfold val
  rw [find_map_val]
  cases find m e with
  | none => exact h0.symm
  | some v => rfl

theorem others_spec (m : ND) (hs : Sorted m) : ∀ nd : ND, Sorted nd → (∀ k ∈ keys m, k ∉ keys nd) →
    Sorted (m.foldl (fun nd p =>
      if p.1 = "H".toList then nd
      else if p.1 = "O".toList then nd
      else if p.1 = "Charge".toList then nd
      else add nd p.1 p.2) nd) ∧
    (∀ e, Keep e → val (m.foldl (fun nd p =>
      if p.1 = "H".toList then nd
      else if p.1 = "O".toList then nd
      else if p.1 = "Charge".toList then nd
      else add nd p.1 p.2) nd) e = val nd e + val m e) ∧
    (∀ e, e ∈ keys (m.foldl (fun nd p =>
      if p.1 = "H".toList then nd
      else if p.1 = "O".toList then nd
      else if p.1 = "Charge".toList then nd
      else add nd p.1 p.2) nd) ↔ e ∈ keys nd ∨ (e ∈ keys m ∧ Keep e)) := by
  induction m with
  | nil => intro nd hn _; exact ⟨hn, by simp [val, find], by simp [keys]⟩
  | cons p m ih =>
    intro nd hn hd
    obtain ⟨a, v⟩ := p
    have hnk := not_mem_keys_of_sorted hs
    have hs' := (List.pairwise_cons.mp hs).2
    have hdm : ∀ k ∈ keys m, k ∉ keys nd := fun k hk => hd k (by
      simp only [keys, List.map_cons, List.mem_cons] at hk ⊢; exact .inr hk)
    simp only [List.foldl_cons]
    by_cases hk : Keep a
    · obtain ⟨k1, k2, k3⟩ := hk
      rw [if_neg k1, if_neg k2, if_neg k3]
      have e1 := add_one nd (a, v)
      dsimp only at e1
      rw [e1]
      obtain ⟨i1, i2, i3⟩ := ih hs' (addEntry 1 nd (a, v)) (sorted_addEntry _ hn _) (by
        intro k hk hm
        rcases (keys_addEntry _ _ _ _).mp hm with h | h
        · subst h; exact hnk hk
        · exact hdm k hk h)
      refine ⟨i1, fun e he => ?_, fun e => ?_⟩
      · rw [i2 e he, val_addEntry, val_cons]
        by_cases h : e = a
        · subst h; simp [val_of_none hnk]
        · simp [h]
      · rw [i3, keys_addEntry]
        simp only [keys, List.map_cons, List.mem_cons]
        constructor
        · rintro ((h | h) | ⟨h, h'⟩)
          · exact .inr ⟨.inl h, h ▸ ⟨k1, k2, k3⟩⟩
          · exact .inl h
          · exact .inr ⟨.inr h, h'⟩
        · rintro (h | ⟨h | h, h'⟩)
          · exact .inl (.inr h)
          · exact .inl (.inl h)
          · exact .inr ⟨h, h'⟩
    · have e : (if a = "H".toList then nd
          else if a = "O".toList then nd
          else if a = "Charge".toList then nd
          else add nd a v) = nd := by
        split_ifs with h1 h2 h3
        · rfl
        · rfl
        · rfl
        · exact absurd ⟨h1, h2, h3⟩ hk
      rw [e]
      obtain ⟨i1, i2, i3⟩ := ih hs' nd hn hdm
      refine ⟨i1, fun e he => ?_, fun e => ?_⟩
      · rw [i2 e he, val_cons, if_neg (fun h : e = a => hk (h ▸ he))]
      · rw [i3]
        simp only [keys, List.map_cons, List.mem_cons]
        constructor
        · rintro (h | ⟨h, h'⟩)
          · exact .inl h
          · exact .inr ⟨.inr h, h'⟩
        · rintro (h | ⟨h | h, h'⟩)
          · exact .inl h
          · exact absurd (h ▸ h') hk
          · exact .inr ⟨h, h'⟩

theorem keys_multiply (m : ND) (x : ℚ) : keys (multiply m x) = keys m := by
  simp [keys, multiply]

theorem fromSpecies_spec (comps : List Name) (hn : ∀ n ∈ comps, ∀ c ∈ n, '(' < c)
    (stoich : List ND) (hs : ∀ st ∈ stoich, Sorted st)
    (hp : ∀ st ∈ stoich, ∀ p ∈ st, ∀ c ∈ p.1, '(' < c) (cs : List ℚ) (vol : ℚ) (x : Soln) :
    Contains (stoich.zip cs) vol x (fromSpecies comps stoich cs vol x) ∧
    ∀ n ∈ comps, Keep n → n ∈ keys (fromSpecies comps stoich cs vol x).totals := by
  obtain ⟨z1, z2, z3⟩ := zeros_spec comps [] (by simp [Sorted]) (by simp [val, find])
  obtain ⟨s1, s2, s3⟩ := sumUp_spec (stoich.zip cs)
    (fun p hp => hs _ (List.of_mem_zip hp).1) (zeros comps) z1
  have m1 : Sorted (multiply (sumUp (zeros comps) (stoich.zip cs)) vol) := List.pairwise_map.mpr s1
  have m2 : ∀ e, val (multiply (sumUp (zeros comps) (stoich.zip cs)) vol) e =
      content (stoich.zip cs) e * vol := fun e => by
    unfold multiply
    rw [val_mapval _ (fun v => v * vol) (zero_mul _), s2]
    have : val (zeros comps) e = 0 := z2 e
    rw [this, zero_add]
  obtain ⟨o1, o2, o3⟩ := others_spec _ m1 [] (by simp [Sorted]) (by simp [keys])
  have hplain : ∀ p ∈ others (multiply (sumUp (zeros comps) (stoich.zip cs)) vol),
      (∀ c ∈ p.1, '(' < c) ∧ p.1 ≠ "H".toList ∧ p.1 ≠ "O".toList ∧ p.1 ≠ "Charge".toList := by
    intro p hp'
    have hk : p.1 ∈ keys (others (multiply (sumUp (zeros comps) (stoich.zip cs)) vol)) :=
      List.mem_map.mpr ⟨p, hp', rfl⟩
    rcases (o3 p.1).mp hk with h | ⟨h, h'⟩
    · simp [keys] at h
    · refine ⟨?_, h'⟩
      rw [keys_multiply] at h
      rcases (s3 p.1).mp h with h | ⟨q, hq, h⟩
      · rcases (z3 p.1).mp h with h | h
        · simp [keys] at h
        · exact hn _ h
      · obtain ⟨r, hr, e⟩ := List.mem_map.mp h
        rw [← e]
        exact hp _ (List.of_mem_zip hq).1 r hr
  have hsimp := simplifyRedox_plain o1 hplain
  have htot : (fromSpecies comps stoich cs vol x).totals =
      (others (multiply (sumUp (zeros comps) (stoich.zip cs)) vol)).map
        (fun p => (p.1, if p.2 < 1 / 10000000000000000000000000 then 0 else p.2)) := by
    simp only [fromSpecies, update]
    exact congrArg _ hsimp
  refine ⟨⟨?_, ?_, ?_, ?_, ?_, rfl, rfl⟩, ?_⟩
  · exact (pick_val _ _).trans (m2 _)
  · exact (pick_val _ _).trans (m2 _)
  · exact (pick_val _ _).trans (m2 _)
  · intro e e1 e2 e3
    rw [htot, val_mapval _ (fun v => if v < 1 / 10000000000000000000000000 then 0 else v)
      (by norm_num)]
    have : val (others (multiply (sumUp (zeros comps) (stoich.zip cs)) vol)) e =
        content (stoich.zip cs) e * vol := by
      have := o2 e ⟨e1, e2, e3⟩
      rw [m2] at this
      exact this.trans (by simp [val, find])
    rw [this]
    have h25 : (1 : ℚ) / 10000000000000000000000000 = 1 / 10 ^ 25 := by norm_num
    simp only [h25]
  · simp only [fromSpecies, update]; ring
  · intro n hn' hk
    rw [htot]
    have : n ∈ keys (others (multiply (sumUp (zeros comps) (stoich.zip cs)) vol)) := by
      refine (o3 n).mpr (.inr ⟨?_, hk⟩)
      rw [keys_multiply]
      exact (s3 n).mpr (.inl ((z3 n).mpr (.inr hn')))
    simpa [keys] using this

/-! ## Theorems -/

/-- What is true of `SpeciesConcentrations2Module` when saving of species is on. For a vector with
a concentration of every species in every grid cell, the solution of every reaction cell holds,
in the volume of water of its first grid cell, the hydrogen, oxygen, charge and elements of the
species. Every component other than hydrogen, oxygen and charge has a total, also "H2O". -/
theorem speciesToModule_partial {g : List Int} {s : SState} (hr : Ready g s) (hon : s.on = true)
    (c : List ℚ) (hc : c.length = s.stoich.length * s.map.nxyz) :
    ∃ s', speciesToModule s c = .ok (s', .ok) ∧ s' = { s with sol := s'.sol } ∧
      (∀ n j, ¬ Owns s.map.ranges n j → s'.sol n j = s.sol n j) ∧
      (∀ n j, s.sol n j = none → s'.sol n j = none) ∧
      ∀ n j x i por sat rv, Owns s.map.ranges n j → s.sol n j = some x → Primary g j i →
        s.por[i]? = some por → s.sat[i]? = some sat → s.rv[i]? = some rv →
        ∃ l x', At s c i l ∧ s'.sol n j = some x' ∧ Contains l (por * sat * rv) x x' ∧
          ∀ e ∈ s.comps, Keep e → e ∈ keys x'.totals := by
  obtain ⟨hcon, hgl, hporl, hsatl, hrvl, hnames, hsorted, hplain⟩ := hr
  have cellOk : ∀ n j, Owns s.map.ranges n j → ∃ i cs por sat rv, Primary g j i ∧
      s.por[i]? = some por ∧ s.sat[i]? = some sat ∧ s.rv[i]? = some rv ∧
      At s c i (s.stoich.zip cs) ∧
      ∀ x, setAt s c n j x = .ok (fromSpecies s.comps s.stoich cs (por * sat * rv) x) := by
    intro n j ho
    obtain ⟨cells, i, h1, h2, h3, h4, _, _⟩ := primary_of_ready hcon hgl ho
    have hk : ∀ k, k < s.stoich.length → k * s.map.nxyz + i < c.length := by
      intro k hk
      rw [hc]
      calc k * s.map.nxyz + i < k * s.map.nxyz + s.map.nxyz := by omega
        _ = (k + 1) * s.map.nxyz := by rw [Nat.succ_mul]
        _ ≤ s.stoich.length * s.map.nxyz := Nat.mul_le_mul_right _ hk
    have hcs : (List.range s.stoich.length).mapM (fun (k : Nat) =>
        idx c ((k * s.map.nxyz + i : Nat) : Int)) =
        .ok ((List.range s.stoich.length).map (fun k => (c[k * s.map.nxyz + i]?).getD 0)) := by
      apply mapM_ok
      intro k hkm
      have := hk k (List.mem_range.mp hkm)
      rw [List.getElem?_eq_getElem this]
      exact idx_nat (List.getElem?_eq_getElem this)
    have hp := List.getElem?_eq_getElem (show i < s.por.length by omega)
    have ht := List.getElem?_eq_getElem (show i < s.sat.length by omega)
    have hv := List.getElem?_eq_getElem (show i < s.rv.length by omega)
    refine ⟨i, (List.range s.stoich.length).map (fun k => (c[k * s.map.nxyz + i]?).getD 0),
      _, _, _, h3, hp, ht, hv, ⟨?_, ?_⟩, fun x => ?_⟩
    rotate_left 2
    · unfold setAt
      rw [h1, Out.ok_bind, h2, Out.ok_bind, hcs, Out.ok_bind, idx_nat hp, Out.ok_bind,
        idx_nat ht, Out.ok_bind, idx_nat hv, Out.ok_bind]
    · exact List.map_fst_zip (by simp)
    · intro k v hv
      rw [List.map_snd_zip (by simp)] at hv
      obtain ⟨hkl, hv'⟩ := List.getElem?_eq_some_iff.mp hv
      simp only [List.length_map, List.length_range] at hkl
      have := hk k hkl
      simp only [List.getElem_map, List.getElem_range, List.getElem?_eq_getElem this,
        Option.getD_some] at hv'
      rw [List.getElem?_eq_getElem this, hv']
  let F : Nat → Int → Soln → Soln := fun n j x =>
    match setAt s c n j x with
    | .ok y => y
    | _ => x
  obtain ⟨w', h1, h2, h3⟩ := updateCells_spec s.map.ranges (setAt s c) s.sol F (by
    intro n j x ho _
    obtain ⟨i, cs, por, sat, rv, _, _, _, _, _, h⟩ := cellOk n j ho
    simp only [F, h])
  refine ⟨{ s with sol := w' }, ?_, rfl, h3, ?_, ?_⟩
  · unfold speciesToModule
    rw [if_pos hon, h1]
    rfl
  · intro n j hx
    by_cases ho : Owns s.map.ranges n j
    · simp only [h2 n j ho, hx, Option.map_none]
    · simp only [h3 n j ho, hx]
  · intro n j x i por sat rv ho hx hprim hpor hsat hrv
    obtain ⟨i', cs, por', sat', rv', hprim', hpor', hsat', hrv', hat, h⟩ := cellOk n j ho
    have hii : i' = i := Nat.le_antisymm (hprim'.2 i hprim.1) (hprim.2 i' hprim'.1)
    subst hii
    rw [hpor] at hpor'; rw [hsat] at hsat'; rw [hrv] at hrv'
    cases hpor'; cases hsat'; cases hrv'
    refine ⟨_, _, hat, ?_, fromSpecies_spec s.comps hnames s.stoich hsorted hplain cs _ x⟩
    simp only [h2 n j ho, hx, Option.map_some, F, h]

/-- Without saving of species the call is refused and nothing changes. -/
theorem speciesToModule_off (s : SState) (h : s.on = false) (c : List ℚ) :
    speciesToModule s c = .ok (s, .invalidArg) := by
  unfold speciesToModule
  rw [h]
  rfl

/-- Two grid cells, the second without water; species Na+ and OH-. -/
def demo : SState :=
  { map := ⟨2, 1, 2, [0, 1], [[0], [1]], [(0, 1)]⟩, on := true,
    comps := ["H2O".toList, "H".toList, "O".toList, "Charge".toList, "Na".toList],
    stoich := [[("Charge".toList, 1), ("Na".toList, 1)],
      [("Charge".toList, -1), ("H".toList, 1), ("O".toList, 1)]],
    por := [1/2, 1/2], sat := [1, 0], rv := [1, 1],
    sol := fun n j => if n = 0 ∧ (j = 0 ∨ j = 1) then
      some ⟨111, 111/2, 0, 1, 1, 1, [("Na".toList, 7)]⟩ else none }

theorem demo_ready : Ready [0, 1] demo where
  con := (createMapping_consistent ⟨2, 1, 2, [], [], []⟩ demo.map [0, 1] (by decide)).1
  glen := rfl
  porl := rfl
  satl := rfl
  rvl := rfl
  names := by decide
  sorted := by unfold Sorted; decide
  plain := by decide

/-- The solution of cell `j` of worker 0 after a call. -/
def solOf (o : Out (SState × IRM)) (j : Int) : Option Soln :=
  match o with
  | .ok p => p.1.sol 0 j
  | _ => none

/-- A case of the theorem: 2 mol/L of Na+ and 4 mol/L of OH- in half a litre. The total named H2O,
which is not an element, is stored with 0 mol. -/
theorem demo_case : solOf (speciesToModule demo [2, 2, 4, 4]) 0 =
    some { totalH := 2, totalO := 2, cb := -1, massWater := 4/111, solnVol := 1, density := 1,
           totals := [("H2O".toList, 0), ("Na".toList, 1)] } := by
  decide +kernel

/-- A cell without water loses its solution's contents, although `SetConcentrations` keeps them
(`Verif.Conc.setConcentrations_stores`). -/
theorem dry_cell_emptied : solOf (speciesToModule demo [2, 2, 4, 4]) 1 =
    some { totalH := 0, totalO := 0, cb := 0, massWater := 0, solnVol := 1, density := 1,
           totals := [("H2O".toList, 0), ("Na".toList, 0)] } := by
  decide +kernel

/-- A vector that is too short is not refused but read past its end. -/
theorem short_vector_violated : speciesToModule demo [2, 2, 4] = .ub := rfl

end Verif.Species
