import Verif.Conc.Lemmas

/-! # `SetConcentrations` (C12) -/

namespace Verif.Conc

open Verif.OMap Verif.NameDouble Verif.Mapping Verif.Grid Verif.Ranges

theorem find_map_val (m : ND) (f : ℚ → ℚ) (e : Name) :
    find (m.map (fun p => (p.1, f p.2))) e = (find m e).map f := by
  induction m with
  | nil => rfl
  | cons p m ih =>
    obtain ⟨a, v⟩ := p
    simp only [List.map_cons, find, ih]
    split <;> rfl

/-- Element amounts as stored by `update`. -/
theorem update_totals {u : Units} {dens vol : ℚ} {es : List Name} (he : Elements es)
    {cs gs : List ℚ} {l : List (Name × ℚ)} (hl : l.map Prod.fst = es)
    (hk : ∀ (k : Nat) e c g, es[k]? = some e → cs[k]? = some c → gs[k]? = some g →
        l[k]? = some (e, clamp (molar u dens g c * vol))) (x : Soln) (h o q : ℚ) :
    let x' := update x h o q (l.foldl (fun m p => add m p.1 p.2) [])
    Sorted x'.totals ∧ (∀ e ∈ keys x'.totals, e ∈ es) ∧
    ∀ (k : Nat) e c g, es[k]? = some e → cs[k]? = some c → gs[k]? = some g →
      find x'.totals e = some (if molar u dens g c * vol < 1 / 10 ^ 25 then 0
        else molar u dens g c * vol) := by
  obtain ⟨a, b, c, d⟩ := foldl_add l [] (by simp [Sorted]) (hl ▸ he.nodup) (by simp [keys])
  have hplain : simplifyRedox (l.foldl (fun m p => add m p.1 p.2) []) =
      l.foldl (fun m p => add m p.1 p.2) [] := by
    apply simplifyRedox_plain a
    intro p hp
    have : p.1 ∈ es := by
      have := (b p.1).mp (List.mem_map.mpr ⟨p, hp, rfl⟩)
      simpa [keys, hl] using this
    exact he.good p.1 this
  simp only [update, hplain]
  refine ⟨List.pairwise_map.mpr a, ?_, ?_⟩
  · intro e hm
    have : e ∈ keys (l.foldl (fun m p => add m p.1 p.2) []) := by
      simpa [keys] using hm
    have := (b e).mp this
    simpa [keys, hl] using this
  · intro k e cc g he' hc hg
    have hm := hk k e cc g he' hc hg
    have := c _ (List.mem_of_getElem? hm)
    rw [find_map_val _ (fun v => if v < 1 / 10000000000000000000000000 then 0 else v), this]
    simp only [Option.map_some, Option.some.injEq]
    unfold clamp
    have h25 : (1 : ℚ) / 10000000000000000000000000 = 1 / 10 ^ 25 := by norm_num
    rw [h25]
    by_cases hneg : molar u dens g cc * vol < 0
    · have : molar u dens g cc * vol < 1 / 10 ^ 25 := lt_trans hneg (by positivity)
      rw [if_pos hneg, if_pos this, if_pos (by positivity)]
    · rw [if_neg hneg]

theorem setCell_spec (h2o : Bool) (u : Units) (es : List Name) (he : Elements es)
    (comps : List Name) (hcomps : comps = (if h2o then ["H2O".toList] else []) ++
      ["H".toList, "O".toList, "Charge".toList] ++ es)
    (gfw row : List ℚ) (hg : gfw.length = comps.length) (hr : row.length = comps.length)
    (hpos : ∀ x ∈ gfw, 0 < x) (por sat rv dens : ℚ) (hs : 0 < sat) (x : Soln) :
    ∃ x', setCell h2o u comps gfw row por sat rv dens x = .ok x' ∧
      Stored h2o u es (fun k c g => row[k]? = some c ∧ gfw[k]? = some g) dens (por * sat * rv)
        x x' := by
  have hcs : ∀ (pre : Nat) (k : Nat) (e : Name) (cs gs : List ℚ), cs.length = es.length →
      gs.length = es.length → es[k]? = some e →
      ∃ c g, cs[k]? = some c ∧ gs[k]? = some g := by
    intro _ k e cs gs h1 h2 h3
    obtain ⟨hk, _⟩ := List.getElem?_eq_some_iff.mp h3
    exact ⟨cs[k], gs[k], List.getElem?_eq_getElem (by omega), List.getElem?_eq_getElem (by omega)⟩
  cases h2o with
  | true =>
    simp only [if_true, List.cons_append, List.nil_append] at hcomps
    subst hcomps
    match gfw, row, hg, hr with
    | gw :: gh :: go :: gq :: gs, cw :: ch :: co :: cq :: cs, hg, hr =>
      have hgl : gs.length = es.length := by simpa using hg
      have hcl : cs.length = es.length := by simpa using hr
      obtain ⟨l, h1, h2, h3⟩ := elementMoles_ok u dens (por * sat * rv) es cs gs hcl hgl
      obtain ⟨t1, t2, t3⟩ := update_totals he h2 h3 x
        ((molar u dens gh ch + molar u dens gw cw * 2) * (por * sat * rv))
        ((molar u dens go co + molar u dens gw cw) * (por * sat * rv))
        (molar u dens gq cq * (por * sat * rv))
      refine ⟨update x ((molar u dens gh ch + molar u dens gw cw * 2) * (por * sat * rv))
        ((molar u dens go co + molar u dens gw cw) * (por * sat * rv))
        (molar u dens gq cq * (por * sat * rv)) (l.foldl (fun m p => add m p.1 p.2) []), ?_, ?_⟩
      · simp only [setCell, if_neg (not_le.mpr hs), h1, Out.ok_bind]
      · refine ⟨⟨molar u dens gw cw, by simp, fun _ => ⟨cw, gw, by simp, molar_isMolar u cw
            (hpos _ (by simp))⟩, ⟨ch, gh, molar u dens gh ch, by simp [fixed],
            molar_isMolar u ch (hpos _ (by simp)), ?_⟩, ⟨co, go, molar u dens go co,
            by simp [fixed], molar_isMolar u co (hpos _ (by simp)), ?_⟩⟩,
          ⟨cq, gq, molar u dens gq cq, by simp [fixed], molar_isMolar u cq (hpos _ (by simp)), ?_⟩,
          ?_, t2, t1, ?_, rfl, rfl⟩
        · simp only [update]; ring
        · simp only [update]
        · simp only [update]
        · intro k e hk
          obtain ⟨c, g, hc, hgk⟩ := hcs 4 k e cs gs hcl hgl hk
          refine ⟨c, g, molar u dens g c, ?_, molar_isMolar u c (hpos g ?_), t3 k e c g hk hc hgk⟩
          · have : fixed true + k = k + 1 + 1 + 1 + 1 := by simp only [fixed, if_true]; omega
            rw [this]
            simp [hc, hgk]
          · have := List.mem_of_getElem? hgk; simp [this]
        · simp only [update]; ring
  | false =>
    simp only [Bool.false_eq_true, if_false, List.cons_append, List.nil_append] at hcomps
    subst hcomps
    match gfw, row, hg, hr with
    | gh :: go :: gq :: gs, ch :: co :: cq :: cs, hg, hr =>
      have hgl : gs.length = es.length := by simpa using hg
      have hcl : cs.length = es.length := by simpa using hr
      obtain ⟨l, h1, h2, h3⟩ := elementMoles_ok u dens (por * sat * rv) es cs gs hcl hgl
      obtain ⟨t1, t2, t3⟩ := update_totals he h2 h3 x
        (molar u dens gh ch * (por * sat * rv)) (molar u dens go co * (por * sat * rv))
        (molar u dens gq cq * (por * sat * rv))
      refine ⟨update x (molar u dens gh ch * (por * sat * rv))
        (molar u dens go co * (por * sat * rv))
        (molar u dens gq cq * (por * sat * rv)) (l.foldl (fun m p => add m p.1 p.2) []), ?_, ?_⟩
      · simp only [setCell, if_neg (not_le.mpr hs), h1, Out.ok_bind]
      · refine ⟨⟨0, by simp, by simp, ⟨ch, gh, molar u dens gh ch, by simp [fixed],
            molar_isMolar u ch (hpos _ (by simp)), ?_⟩, ⟨co, go, molar u dens go co,
            by simp [fixed], molar_isMolar u co (hpos _ (by simp)), ?_⟩⟩,
          ⟨cq, gq, molar u dens gq cq, by simp [fixed], molar_isMolar u cq (hpos _ (by simp)), ?_⟩,
          ?_, t2, t1, ?_, rfl, rfl⟩
        · simp only [update]; ring
        · simp only [update]; ring
        · simp only [update]
        · intro k e hk
          obtain ⟨c, g, hc, hgk⟩ := hcs 3 k e cs gs hcl hgl hk
          refine ⟨c, g, molar u dens g c, ?_, molar_isMolar u c (hpos g ?_), t3 k e c g hk hc hgk⟩
          · have : fixed false + k = k + 1 + 1 + 1 := by
              simp only [fixed, Bool.false_eq_true, if_false]; omega
            rw [this]
            simp [hc, hgk]
          · have := List.mem_of_getElem? hgk; simp [this]
        · simp only [update]; ring

theorem Stored.imp {h2o : Bool} {u : Units} {es : List Name} {ent ent' : Nat → ℚ → ℚ → Prop}
    {dens vol : ℚ} {x x' : Soln} (h : Stored h2o u es ent dens vol x x')
    (hi : ∀ k c g, ent k c g → ent' k c g) : Stored h2o u es ent' dens vol x x' := by
  obtain ⟨⟨w, a, b, ⟨c1, g1, m1, e1, i1, t1⟩, ⟨c2, g2, m2, e2, i2, t2⟩⟩,
    ⟨c3, g3, m3, e3, i3, t3⟩, el, on, so, mw, vo, de⟩ := h
  refine ⟨⟨w, a, fun hh => ?_, ⟨c1, g1, m1, hi _ _ _ e1, i1, t1⟩,
    ⟨c2, g2, m2, hi _ _ _ e2, i2, t2⟩⟩, ⟨c3, g3, m3, hi _ _ _ e3, i3, t3⟩, ?_, on, so, mw, vo, de⟩
  · obtain ⟨c, g, e, i⟩ := b hh
    exact ⟨c, g, hi _ _ _ e, i⟩
  · intro k e hk
    obtain ⟨c, g, m, h1, h2⟩ := el k e hk
    exact ⟨c, g, m, hi _ _ _ h1, h2⟩

/-- The first grid cell of a reaction cell, as the code finds it. -/
theorem primary_of_ready {g : List Int} {s : MapState} (hcon : Consistent g s)
    (hg : g.length = s.nxyz) {n : Nat} {j : Int} (ho : Owns s.ranges n j) :
    ∃ cells i, idx s.backward j = .ok cells ∧ idx cells 0 = .ok i ∧ Primary g j i ∧
      i < s.nxyz ∧ 0 ≤ j ∧ j < s.count := by
  have hb := hcon.ranges.2.owns_bounds ho
  have hlt : j.toNat < s.backward.length := by rw [hcon.back_len]; omega
  obtain ⟨cells, hc⟩ : ∃ cells, s.backward[j.toNat]? = some cells :=
    ⟨_, List.getElem?_eq_getElem hlt⟩
  have hj : ((j.toNat : Nat) : Int) = j := by omega
  obtain ⟨h1, h2, h3⟩ := hcon.back _ _ hc
  rw [hj] at h3
  match cells, h1 with
  | i :: cells, _ =>
    have hi : g[i]? = some j := (h3 i).mp List.mem_cons_self
    refine ⟨i :: cells, i, by rw [← hj]; exact idx_nat hc, rfl, ⟨hi, fun i' hi' => ?_⟩, ?_,
      hb.1, hb.2⟩
    · rcases List.mem_cons.mp ((h3 i').mpr hi') with rfl | hm
      · exact Nat.le_refl _
      · exact Nat.le_of_lt ((List.pairwise_cons.mp h2).1 i' hm)
    · rw [← hg]; exact (List.getElem?_eq_some_iff.mp hi).1

theorem Primary.unique {g : List Int} {j : Int} {i i' : Nat} (h : Primary g j i)
    (h' : Primary g j i') : i = i' :=
  Nat.le_antisymm (h.2 i' h'.1) (h'.2 i h.1)

theorem idx_lt {α : Type} {l : List α} {i : Nat} (h : i < l.length) :
    idx l (i : Int) = .ok l[i] := idx_nat (List.getElem?_eq_getElem h)

/-- C12. `SetConcentrations` stores, in the solution of every reaction cell of positive
saturation, the amounts given by the concentrations of the cell's first grid cell, that cell's
porosity, saturation, volume and density and the selected unit; a cell without water keeps its
solution, and nothing else of the module changes. -/
theorem setConcentrations_stores {g : List Int} {s : CState} {es : List Name}
    (hr : Ready g s es) (t : List ℚ) (ht : t.length = s.map.nxyz * s.comps.length) :
    ∃ s', setConcentrations s t = .ok s' ∧ s' = { s with sol := s'.sol } ∧
      (∀ n j, ¬ Owns s.map.ranges n j → s'.sol n j = s.sol n j) ∧
      ∀ n j x i por sat rv dens, Owns s.map.ranges n j → s.sol n j = some x →
        Primary g j i → Params s i por sat rv dens →
        ∃ x', s'.sol n j = some x' ∧ (sat ≤ 0 → x' = x) ∧
          (0 < sat → Stored s.h2o s.units es (Entry s t i) dens (por * sat * rv) x x') := by
  obtain ⟨hcon, hgl, hcomps, hel, hgfwl, hgfw, hporl, hsatl, hrvl, hdensl, -, -, -, -⟩ := hr
  have hgne : s.gfw ≠ [] := by
    intro h
    have hl : s.comps.length = 0 := by rw [← hgfwl, h]; rfl
    rw [hcomps] at hl
    simp at hl
  -- the gathered rows
  have hrow : ∀ i ∈ List.range s.map.count, ∃ row, gatherRow s t i = .ok row ∧
      ∃ p, Primary g (i : Int) p ∧ row.length = s.comps.length ∧
        ∀ k, k < s.comps.length → row[k]? = t[k * s.map.nxyz + p]? := by
    intro i hi
    have hi' : i < s.map.count := List.mem_range.mp hi
    obtain ⟨n, _, ho⟩ := hcon.ranges.2.owner (c := (i : Int)) (by omega) (by omega)
    obtain ⟨cells, p, h1, h2, h3, h4, _, _⟩ := primary_of_ready hcon hgl ho
    have hk : ∀ k, k < s.comps.length → k * s.map.nxyz + p < t.length := by
      intro k hk
      rw [ht]
      calc k * s.map.nxyz + p < k * s.map.nxyz + s.map.nxyz := by omega
        _ = (k + 1) * s.map.nxyz := by rw [Nat.succ_mul]
        _ ≤ s.comps.length * s.map.nxyz := Nat.mul_le_mul_right _ hk
        _ = s.map.nxyz * s.comps.length := Nat.mul_comm _ _
    refine ⟨(List.range s.comps.length).map (fun k => (t[k * s.map.nxyz + p]?).getD 0), ?_, p,
      h3, by simp, fun k hkl => ?_⟩
    · simp only [gatherRow, h1, h2, Out.ok_bind]
      apply mapM_ok
      intro k hkm
      have := hk k (List.mem_range.mp hkm)
      rw [idx_lt this, List.getElem?_eq_getElem this]
      rfl
    · have := hk k hkl
      simp only [List.getElem?_map, List.getElem?_range hkl, Option.map_some]
      rw [List.getElem?_eq_getElem this]; rfl
  let R : Nat → List ℚ := fun i =>
    match gatherRow s t i with
    | .ok row => row
    | _ => []
  have hR : ∀ i ∈ List.range s.map.count, gatherRow s t i = .ok (R i) := by
    intro i hi
    obtain ⟨row, h, _⟩ := hrow i hi
    simp only [R, h]
  have hrows : (List.range s.map.count).mapM (gatherRow s t) =
      .ok ((List.range s.map.count).map R) := mapM_ok _ _ _ hR
  have hrowAt : ∀ n j, Owns s.map.ranges n j →
      idx ((List.range s.map.count).map R) j = .ok (R j.toNat) ∧
      ∃ p, Primary g j p ∧ p < s.map.nxyz ∧ (R j.toNat).length = s.comps.length ∧
        ∀ k, k < s.comps.length → (R j.toNat)[k]? = t[k * s.map.nxyz + p]? := by
    intro n j ho
    obtain ⟨_, _, _, _, _, _, h0, h1⟩ := primary_of_ready hcon hgl ho
    have hj : ((j.toNat : Nat) : Int) = j := by omega
    have hlt : j.toNat < s.map.count := by omega
    refine ⟨?_, ?_⟩
    · have := idx_nat (l := (List.range s.map.count).map R) (i := j.toNat) (a := R j.toNat)
        (by simp [hlt])
      rwa [hj] at this
    · obtain ⟨row, a, p, b, c, d⟩ := hrow j.toNat (List.mem_range.mpr hlt)
      have e : R j.toNat = row := by
        have := hR j.toNat (List.mem_range.mpr hlt)
        rw [a] at this
        simpa using this.symm
      rw [hj] at b
      refine ⟨p, b, ?_, by rw [e]; exact c, by rw [e]; exact d⟩
      rw [← hgl]; exact (List.getElem?_eq_some_iff.mp b.1).1
  -- the body of the loop
  have hbody : ∀ n j x, Owns s.map.ranges n j → ∃ x', setCellAt s ((List.range s.map.count).map R)
      n j x = .ok x' ∧ ∀ i por sat rv dens, Primary g j i → Params s i por sat rv dens →
        (sat ≤ 0 → x' = x) ∧
        (0 < sat → Stored s.h2o s.units es (Entry s t i) dens (por * sat * rv) x x') := by
    intro n j x ho
    obtain ⟨hr1, p, hp, hpl, hr2, hr3⟩ := hrowAt n j ho
    obtain ⟨cells, i0, c1, c2, c3, c4, c5, c6⟩ := primary_of_ready hcon hgl ho
    have : i0 = p := Primary.unique c3 hp
    subst this
    have key : setCellAt s ((List.range s.map.count).map R) n j x =
        setCell s.h2o s.units s.comps s.gfw (R j.toNat) (s.por[i0]'(by omega))
          (s.sat[i0]'(by omega)) (s.rv[i0]'(by omega)) (s.dens[i0]'(by omega)) x := by
      simp only [setCellAt, c1, c2, Out.ok_bind]
      rw [idx_lt (by omega : i0 < s.dens.length), idx_lt (by omega : i0 < s.por.length),
        idx_lt (by omega : i0 < s.rv.length), idx_lt (by omega : i0 < s.sat.length), hr1]
      rfl
    have hpar : ∀ i por sat rv dens, Primary g j i → Params s i por sat rv dens →
        i = i0 ∧ por = s.por[i0]'(by omega) ∧ sat = s.sat[i0]'(by omega) ∧
          rv = s.rv[i0]'(by omega) ∧ dens = s.dens[i0]'(by omega) := by
      intro i por sat rv dens hpi ⟨q1, q2, q3, q4⟩
      have : i = i0 := Primary.unique hpi hp
      subst this
      refine ⟨rfl, ?_, ?_, ?_, ?_⟩
      · rw [List.getElem?_eq_getElem (by omega)] at q1; simpa using q1.symm
      · rw [List.getElem?_eq_getElem (by omega)] at q2; simpa using q2.symm
      · rw [List.getElem?_eq_getElem (by omega)] at q3; simpa using q3.symm
      · rw [List.getElem?_eq_getElem (by omega)] at q4; simpa using q4.symm
    by_cases hsat : s.sat[i0]'(by omega) ≤ 0
    · refine ⟨x, ?_, ?_⟩
      · rw [key, setCell, if_pos hsat]
      · intro i por sat rv dens hpi hpp
        obtain ⟨_, _, h, _, _⟩ := hpar i por sat rv dens hpi hpp
        exact ⟨fun _ => rfl, fun h' => absurd h' (by rw [h]; exact not_lt.mpr hsat)⟩
    · obtain ⟨x', hx1, hx2⟩ := setCell_spec s.h2o s.units es hel s.comps hcomps s.gfw
        (R j.toNat) hgfwl hr2 hgfw (s.por[i0]'(by omega)) (s.sat[i0]'(by omega))
        (s.rv[i0]'(by omega)) (s.dens[i0]'(by omega)) (not_le.mp hsat) x
      refine ⟨x', by rw [key]; exact hx1, ?_⟩
      intro i por sat rv dens hpi hpp
      obtain ⟨e0, e1, e2, e3, e4⟩ := hpar i por sat rv dens hpi hpp
      subst e0 e1 e2 e3 e4
      refine ⟨fun h' => absurd h' hsat, fun _ => hx2.imp ?_⟩
      rintro k c gg ⟨h1, h2⟩
      have hk : k < s.comps.length := by
        rw [← hr2]; exact (List.getElem?_eq_some_iff.mp h1).1
      exact ⟨by rw [← hr3 k hk]; exact h1, h2⟩
  let F : Nat → Int → Soln → Soln := fun n j x =>
    match setCellAt s ((List.range s.map.count).map R) n j x with
    | .ok y => y
    | _ => x
  have hF : ∀ n j x, Owns s.map.ranges n j → s.sol n j = some x →
      setCellAt s ((List.range s.map.count).map R) n j x = .ok (F n j x) := by
    intro n j x ho _
    obtain ⟨x', h, _⟩ := hbody n j x ho
    simp only [F, h]
  obtain ⟨w', u1, u2, u3⟩ := updateCells_spec s.map.ranges _ s.sol F hF
  refine ⟨{ s with sol := w' }, ?_, rfl, u3, ?_⟩
  · simp only [setConcentrations, hrows, Out.ok_bind, if_neg hgne, u1]
  · intro n j x i por sat rv dens ho hx hpi hpp
    obtain ⟨x', h1, h2⟩ := hbody n j x ho
    refine ⟨x', ?_, h2 i por sat rv dens hpi hpp⟩
    have : F n j x = x' := by simp only [F, h1]
    show w' n j = _
    rw [u2 n j ho, hx]
    simp [this]

end Verif.Conc
