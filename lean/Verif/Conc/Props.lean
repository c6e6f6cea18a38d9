import Verif.Conc.Set

/-! # `GetConcentrations` and the set/get round trip (C13, C14, C15, C16) -/

namespace Verif.Conc

open Verif.OMap Verif.NameDouble Verif.Mapping Verif.Grid Verif.Ranges

theorem solution2conc_ok {h2o : Bool} {u : Units} {es : List Name} {comps : List Name}
    (hcomps : comps = (if h2o then ["H2O".toList] else []) ++
      ["H".toList, "O".toList, "Charge".toList] ++ es) {gfw : List ℚ}
    (hg : gfw.length = comps.length) (v dens : ℚ) (x : Soln) :
    ∃ d, solution2conc h2o u comps gfw v dens x = .ok d ∧ d.length = comps.length ∧
      (∀ k e g, es[k]? = some e → gfw[fixed h2o + k]? = some g →
        d[fixed h2o + k]? = some (conc u v dens g (val x.totals e))) ∧
      (∀ g, gfw[fixed h2o - 1]? = some g →
        d[fixed h2o - 1]? = some (conc u v dens g x.cb)) ∧
      (h2o = false → (∀ g, gfw[0]? = some g → d[0]? = some (conc u v dens g x.totalH)) ∧
        (∀ g, gfw[1]? = some g → d[1]? = some (conc u v dens g x.totalO))) ∧
      (h2o = true → ∀ gw, gfw[0]? = some gw →
        d[0]? = some (waterConc u v dens gw x.massWater) ∧
        (∀ g, gfw[1]? = some g →
          d[1]? = some (conc u v dens g (x.totalH - 2 * (x.massWater * 1000 / gw)))) ∧
        (∀ g, gfw[2]? = some g →
          d[2]? = some (conc u v dens g (x.totalO - x.massWater * 1000 / gw)))) := by
  cases h2o with
  | true =>
    simp only [if_true, List.cons_append, List.nil_append] at hcomps
    subst hcomps
    match gfw, hg with
    | gw :: gh :: go :: gq :: gs, hg =>
      have hgl : gs.length = es.length := by simpa using hg
      obtain ⟨l, h1, h2, h3⟩ := elementConcs_ok u v dens x.totals es gs hgl
      refine ⟨waterConc u v dens gw x.massWater ::
        conc u v dens gh (x.totalH - 2 * (x.massWater * 1000 / gw)) ::
        conc u v dens go (x.totalO - x.massWater * 1000 / gw) :: conc u v dens gq x.cb :: l,
        ?_, by simp [h2], ?_, ?_, by simp, ?_⟩
      · simp [solution2conc, h1]
      · intro k e g hk hgk
        have : fixed true + k = k + 1 + 1 + 1 + 1 := by simp only [fixed, if_true]; omega
        rw [this] at hgk ⊢
        simp only [List.getElem?_cons_succ] at hgk ⊢
        exact h3 k e g hk hgk
      · intro g hgk; simp [fixed] at hgk ⊢; rw [hgk]
      · intro _ g0 h0
        simp at h0; subst h0
        exact ⟨rfl, fun g hgk => by simp at hgk ⊢; rw [hgk],
          fun g hgk => by simp at hgk ⊢; rw [hgk]⟩
  | false =>
    simp only [Bool.false_eq_true, if_false, List.cons_append, List.nil_append] at hcomps
    subst hcomps
    match gfw, hg with
    | gh :: go :: gq :: gs, hg =>
      have hgl : gs.length = es.length := by simpa using hg
      obtain ⟨l, h1, h2, h3⟩ := elementConcs_ok u v dens x.totals es gs hgl
      refine ⟨conc u v dens gh x.totalH :: conc u v dens go x.totalO :: conc u v dens gq x.cb :: l,
        ?_, by simp [h2], ?_, ?_, ?_, by simp⟩
      · simp [solution2conc, h1]
      · intro k e g hk hgk
        have : fixed false + k = k + 1 + 1 + 1 := by
          simp only [fixed, Bool.false_eq_true, if_false]; omega
        rw [this] at hgk ⊢
        simp only [List.getElem?_cons_succ] at hgk ⊢
        exact h3 k e g hk hgk
      · intro g hgk; simp [fixed] at hgk ⊢; rw [hgk]
      · intro _
        exact ⟨fun g hgk => by simp at hgk ⊢; rw [hgk], fun g hgk => by simp at hgk ⊢; rw [hgk]⟩

theorem volDens_ok {g : List Int} {s : CState} {es : List Name} (hr : Ready g s es) {n : Nat}
    {j : Int} (ho : Owns s.map.ranges n j) (x : Soln) : ∃ vd, volDens s j x = .ok vd := by
  obtain ⟨cells, i, h1, h2, h3, h4, _, _⟩ := primary_of_ready hr.con hr.glen ho
  unfold volDens
  split
  · exact ⟨_, rfl⟩
  · simp only [h1, h2, Out.ok_bind, idx_lt (hr.satl ▸ h4), idx_lt (hr.porl ▸ h4),
      idx_lt (hr.rvl ▸ h4), idx_lt (hr.densl ▸ h4)]
    exact ⟨_, rfl⟩

theorem cellConc_ok {g : List Int} {s : CState} {es : List Name} (hr : Ready g s es) {n : Nat}
    {j : Int} (ho : Owns s.map.ranges n j) :
    ∃ d, cellConc s n j = .ok d ∧ d.length = s.comps.length := by
  obtain ⟨x, hx⟩ := hr.sols n j ho
  obtain ⟨vd, hv⟩ := volDens_ok hr ho x
  obtain ⟨d, h1, h2, _⟩ := solution2conc_ok (u := s.units) hr.comps hr.gfwl vd.1 vd.2 (simplify x)
  refine ⟨d, ?_, h2⟩
  simp only [cellConc, hx, hv, Out.ok_bind]
  exact h1

/-- `GetConcentrations` (C16 for concentrations): every grid cell mapped to a reaction cell gets
that cell's concentrations, every other grid cell the inactive value, and the array has one
block per component. -/
theorem getConcentrations_grid {g : List Int} {s : CState} {es : List Name} (hr : Ready g s es) :
    ∃ c s', getConcentrations s = .ok (c, s') ∧ c.length = s.map.nxyz * s.comps.length ∧
      ∀ i k x, k < s.comps.length → g[i]? = some x →
        (x < 0 → c[k * s.map.nxyz + i]? = some inactive) ∧
        (∀ n, Owns s.map.ranges n x → ∃ d, cellConc s n x = .ok d ∧
          c[k * s.map.nxyz + i]? = d[k]? ∧ k < d.length) := by
  let N : Int → Nat := fun j => match (ownedCells s.map.ranges).find? (fun p => p.2 = j) with
    | some p => p.1
    | none => 0
  have hN : ∀ n j, Owns s.map.ranges n j → N j = n := by
    intro n j ho
    have hm := (mem_ownedCells _ _ _).mpr ho
    cases hf : (ownedCells s.map.ranges).find? (fun p => p.2 = j) with
    | none =>
      have := List.find?_eq_none.mp hf (n, j) hm
      simp at this
    | some p =>
      simp only [N, hf]
      have h1 := List.find?_some hf
      have h2 := List.mem_of_find?_eq_some hf
      have h3 := (mem_ownedCells s.map.ranges p.1 p.2).mp h2
      simp at h1
      rw [h1] at h3
      exact hr.con.ranges.2.owner_unique h3 ho
  let D : Int → List ℚ := fun j => match cellConc s (N j) j with
    | .ok d => d
    | _ => []
  have hval : ∀ n j, Owns s.map.ranges n j →
      cellConc s n j = .ok (D j) ∧ (D j).length = s.comps.length := by
    intro n j ho
    obtain ⟨d, h1, h2⟩ := cellConc_ok hr ho
    have : D j = d := by simp only [D, hN n j ho, h1]
    rw [this]
    exact ⟨h1, h2⟩
  obtain ⟨c, h1, h2, h3⟩ := getGrid_spec hr.con hr.glen s.comps.length
    (List.replicate (s.map.nxyz * s.comps.length) inactive) (by simp) (cellConc s) D hval
  obtain ⟨w', u1, _, _⟩ := updateCells_spec s.map.ranges (fun _ _ x => .ok (simplify x)) s.sol
    (fun _ _ x => simplify x) (fun _ _ _ _ _ => rfl)
  refine ⟨c, { s with sol := w' }, ?_, h2, ?_⟩
  · simp only [getConcentrations, h1, Out.ok_bind, u1]
  · intro i k x hk hx
    obtain ⟨a, b⟩ := h3 i k x hk hx
    have hi : i < s.map.nxyz := by rw [← hr.glen]; exact (List.getElem?_eq_some_iff.mp hx).1
    refine ⟨fun hneg => ?_, fun n ho => ?_⟩
    · rw [Nat.mul_comm, a hneg, List.getElem?_replicate, if_pos]
      calc s.map.nxyz * k + i < s.map.nxyz * k + s.map.nxyz := by omega
        _ = s.map.nxyz * (k + 1) := by rw [Nat.mul_succ]
        _ ≤ s.map.nxyz * s.comps.length := Nat.mul_le_mul_left _ hk
    · have hb := hr.con.ranges.2.owns_bounds ho
      obtain ⟨e1, e2⟩ := hval n x ho
      exact ⟨D x, e1, by rw [Nat.mul_comm]; exact b hb.1, by rw [e2]; exact hk⟩

/-- What a set followed by a get computes for one cell; the basis of C13, C14 and C15. -/
theorem set_get_cell {g : List Int} {s : CState} {es : List Name} (hr : Ready g s es)
    (hsdv : s.sdv = false) (t : List ℚ) (ht : t.length = s.map.nxyz * s.comps.length) :
    ∃ s' c s'', setConcentrations s t = .ok s' ∧ getConcentrations s' = .ok (c, s'') ∧
      ∀ j i p por sat rv dens, g[i]? = some j → 0 ≤ j → Primary g j p →
        Params s p por sat rv dens → 0 < sat →
        ∃ x x', Stored s.h2o s.units es (Entry s t p) dens (por * sat * rv) x x' ∧
          (0 < por ∧ 0 < rv ∧ 0 < dens) ∧
          ∃ d, solution2conc s.h2o s.units s.comps s.gfw (por * sat * rv) dens x' = .ok d ∧
            ∀ k, k < s.comps.length → c[k * s.map.nxyz + i]? = d[k]? := by
  obtain ⟨s', h1, h2, h3, h4⟩ := setConcentrations_stores hr t ht
  have hsol : s' = { s with sol := s'.sol } := h2
  have hr' : Ready g s' es := by
    rw [hsol]
    obtain ⟨a1, a2, a3, a4, a5, a6, a7, a8, a9, a10, a11, a12, a13, a14⟩ := hr
    refine ⟨a1, a2, a3, a4, a5, a6, a7, a8, a9, a10, a11, a12, a13, fun n j ho => ?_⟩
    obtain ⟨x, hx⟩ := a14 n j ho
    obtain ⟨_, p, _, _, hp, hpl, _, _⟩ := primary_of_ready a1 a2 ho
    obtain ⟨x', hx', _⟩ := h4 n j x p (s.por[p]'(by omega)) (s.sat[p]'(by omega))
      (s.rv[p]'(by omega)) (s.dens[p]'(by omega)) ho hx hp
      ⟨List.getElem?_eq_getElem _, List.getElem?_eq_getElem _, List.getElem?_eq_getElem _,
        List.getElem?_eq_getElem _⟩
    exact ⟨x', hx'⟩
  obtain ⟨c, s'', g1, g2, g3⟩ := getConcentrations_grid hr'
  refine ⟨s', c, s'', h1, g1, ?_⟩
  intro j i p por sat rv dens hij hj hp hpar hsat
  obtain ⟨n, _, ho⟩ := hr.con.ranges.2.owner hj (hr.con.count_max.1 j (List.mem_of_getElem? hij))
  obtain ⟨x, hx⟩ := hr.sols n j ho
  obtain ⟨x', hx', _, hst⟩ := h4 n j x p por sat rv dens ho hx hp hpar
  have hst := hst hsat
  have hpor : 0 < por := hr.por por (List.mem_of_getElem? hpar.por)
  have hrv : 0 < rv := hr.rv rv (List.mem_of_getElem? hpar.rv)
  have hdens : 0 < dens := hr.dens dens (List.mem_of_getElem? hpar.dens)
  have hmap : s'.map = s.map := by rw [hsol]
  have hv : volDens s' j x' = .ok (por * sat * rv, dens) := by
    have ho' : Owns s.map.ranges n j := ho
    obtain ⟨cells, i0, c1, c2, c3, c4, _, _⟩ := primary_of_ready hr.con hr.glen ho'
    have : i0 = p := Primary.unique c3 hp
    subst this
    rw [hsol]
    simp only [volDens, hsdv, Bool.false_eq_true, if_false, c1, c2, Out.ok_bind,
      idx_nat hpar.sat, idx_nat hpar.por, idx_nat hpar.rv, idx_nat hpar.dens]
    have : ¬ sat * por * rv ≤ 0 := not_le.mpr (by positivity)
    rw [if_neg this]
    congr 2
    ring
  have hsimp : simplify x' = x' := by
    have : simplifyRedox x'.totals = x'.totals := by
      apply simplifyRedox_plain hst.sorted
      intro q hq
      exact hr.elems.good q.1 (hst.only q.1 (List.mem_map.mpr ⟨q, hq, rfl⟩))
    unfold simplify
    rw [this]
  refine ⟨x, x', hst, ⟨hpor, hrv, hdens⟩, ?_⟩
  obtain ⟨d, hd, _⟩ := solution2conc_ok (u := s.units) hr.comps hr.gfwl (por * sat * rv) dens x'
  refine ⟨d, hd, fun k hk => ?_⟩
  have hcc : cellConc s' n j = .ok d := by
    simp only [cellConc, hx', hv, Out.ok_bind, hsimp]
    rw [hsol]
    exact hd
  have hk' : k < s'.comps.length := by rw [hsol]; exact hk
  obtain ⟨_, b⟩ := g3 i k j hk' hij
  obtain ⟨d', e1, e2, _⟩ := b n (by rw [hmap]; exact ho)
  rw [hcc] at e1
  simp only [Out.ok.injEq] at e1
  rw [e1, ← hmap]
  exact e2

/-- Component `k` of the array `t` in grid cell `i`. -/
def at? (s : CState) (t : List ℚ) (k i : Nat) : Option ℚ := t[k * s.map.nxyz + i]?

/-- C13. With volume and density taken from the module, reading directly after setting returns
for every element, in every grid cell mapped to a wet reaction cell, the concentration set in
that cell's first grid cell. Amounts must be zero or at least 1e-25 mol, see
`set_get_tiny_lost`. -/
theorem set_get_elements {g : List Int} {s : CState} {es : List Name} (hr : Ready g s es)
    (hsdv : s.sdv = false) (t : List ℚ) (ht : t.length = s.map.nxyz * s.comps.length) :
    ∃ s' c s'', setConcentrations s t = .ok s' ∧ getConcentrations s' = .ok (c, s'') ∧
      ∀ j i p por sat rv dens, g[i]? = some j → 0 ≤ j → Primary g j p →
        Params s p por sat rv dens → 0 < sat →
        ∀ k, k < es.length →
          (∀ a gk m, at? s t (fixed s.h2o + k) p = some a → s.gfw[fixed s.h2o + k]? = some gk →
            IsMolar s.units dens gk a m →
            m * (por * sat * rv) = 0 ∨ 1 / 10 ^ 25 ≤ m * (por * sat * rv)) →
          at? s c (fixed s.h2o + k) i = at? s t (fixed s.h2o + k) p ∧
          (at? s t (fixed s.h2o + k) p).isSome := by
  obtain ⟨s', c, s'', h1, h2, h3⟩ := set_get_cell hr hsdv t ht
  refine ⟨s', c, s'', h1, h2, ?_⟩
  intro j i p por sat rv dens hij hj hp hpar hsat k hk hamt
  obtain ⟨x, x', hst, ⟨hpor, hrv, hdens⟩, d, hd, hc⟩ := h3 j i p por sat rv dens hij hj hp hpar hsat
  have hv : 0 < por * sat * rv := by positivity
  obtain ⟨a, gk, m, ⟨ha, hgk⟩, him, hf⟩ := hst.elem k es[k] (List.getElem?_eq_getElem hk)
  have hgpos : 0 < gk := hr.gfw gk (List.mem_of_getElem? hgk)
  obtain ⟨d', e1, e2, e3, _⟩ := solution2conc_ok (u := s.units) hr.comps hr.gfwl
    (por * sat * rv) dens x'
  rw [hd] at e1
  simp only [Out.ok.injEq] at e1
  subst e1
  have hkl : fixed s.h2o + k < s.comps.length := by
    rw [← hr.gfwl]; exact (List.getElem?_eq_some_iff.mp hgk).1
  have hval : val x'.totals es[k] = m * (por * sat * rv) := by
    unfold val
    rw [hf]
    rcases hamt a gk m ha hgk him with h0 | h0
    · rw [h0]; simp
    · simp only [not_lt.mpr h0, if_false]
  unfold at?
  rw [hc _ hkl, ha, e3 k es[k] gk (List.getElem?_eq_getElem hk) hgk, hval]
  refine ⟨?_, rfl⟩
  rw [isMolar_unique hgpos him, conc_molar s.units a hv hdens hgpos]

/-- C14. With water as a component, the total hydrogen (H plus twice H2O) and total oxygen (O
plus H2O), in mol/L, read back equal those set. -/
theorem set_get_water_conserved {g : List Int} {s : CState} {es : List Name}
    (hr : Ready g s es) (hsdv : s.sdv = false) (hw : s.h2o = true) (t : List ℚ)
    (ht : t.length = s.map.nxyz * s.comps.length) :
    ∃ s' c s'', setConcentrations s t = .ok s' ∧ getConcentrations s' = .ok (c, s'') ∧
      ∀ j i p por sat rv dens, g[i]? = some j → 0 ≤ j → Primary g j p →
        Params s p por sat rv dens → 0 < sat →
        ∃ gw gh go tw th tx cw ch co w h o w' h' o',
          s.gfw[0]? = some gw ∧ s.gfw[1]? = some gh ∧ s.gfw[2]? = some go ∧
          at? s t 0 p = some tw ∧ at? s t 1 p = some th ∧ at? s t 2 p = some tx ∧
          at? s c 0 i = some cw ∧ at? s c 1 i = some ch ∧ at? s c 2 i = some co ∧
          IsMolar s.units dens gw tw w ∧ IsMolar s.units dens gh th h ∧
          IsMolar s.units dens go tx o ∧ IsMolar s.units dens gw cw w' ∧
          IsMolar s.units dens gh ch h' ∧ IsMolar s.units dens go co o' ∧
          h' + 2 * w' = h + 2 * w ∧ o' + w' = o + w ∧
          -- the water entry is recomputed from the oxygen total
          w' * (111 / 2) * gw = (o + w) * 1000 := by
  obtain ⟨s', c, s'', h1, h2, h3⟩ := set_get_cell hr hsdv t ht
  refine ⟨s', c, s'', h1, h2, ?_⟩
  intro j i p por sat rv dens hij hj hp hpar hsat
  obtain ⟨x, x', hst, ⟨hpor, hrv, hdens⟩, d, hd, hc⟩ := h3 j i p por sat rv dens hij hj hp hpar hsat
  have hv : 0 < por * sat * rv := by positivity
  obtain ⟨w, _, hw2, ⟨th, gh, h, ⟨eh1, eh2⟩, ih, hth⟩, ⟨tx, go, o, ⟨eo1, eo2⟩, io, hto⟩⟩ := hst.water
  obtain ⟨tw, gw, ⟨ew1, ew2⟩, iw⟩ := hw2 hw
  obtain ⟨d', e1, e2, _, _, _, e3⟩ := solution2conc_ok (u := s.units) hr.comps hr.gfwl
    (por * sat * rv) dens x'
  rw [hd] at e1
  simp only [Out.ok.injEq] at e1
  subst e1
  obtain ⟨d0, d1, d2⟩ := e3 hw gw ew2
  have f1 : fixed s.h2o - 3 = 1 := by simp [fixed, hw]
  have f2 : fixed s.h2o - 2 = 2 := by simp [fixed, hw]
  rw [f1] at eh1 eh2
  rw [f2] at eo1 eo2
  have hl : 4 ≤ s.comps.length := by rw [hr.comps]; simp [hw]
  have gwp : 0 < gw := hr.gfw gw (List.mem_of_getElem? ew2)
  have ghp : 0 < gh := hr.gfw gh (List.mem_of_getElem? eh2)
  have gop : 0 < go := hr.gfw go (List.mem_of_getElem? eo2)
  have hmw : x'.massWater = x'.totalO / (111 / 2) := by
    rw [← hst.massWater]; ring
  have hvne := ne_of_gt hv
  have hgwne := ne_of_gt gwp
  refine ⟨gw, gh, go, tw, th, tx, _, _, _, w, h, o, _, _, _, ew2, eh2, eo2, ew1, eh1, eo1,
    by unfold at?; rw [hc 0 (by omega)]; exact d0,
    by unfold at?; rw [hc 1 (by omega)]; exact d1 gh eh2,
    by unfold at?; rw [hc 2 (by omega)]; exact d2 go eo2,
    iw, ih, io,
    waterConc_isMolar s.units x'.massWater hv hdens gwp,
    conc_isMolar s.units _ hv hdens ghp, conc_isMolar s.units _ hv hdens gop, ?_, ?_, ?_⟩
  · rw [hth]; field_simp; ring
  · rw [hto]; field_simp; ring
  · rw [hmw, hto]; field_simp

/-- C15 as stated: every H2O, H and O entry is returned as it was set. -/
def WaterReturned (s : CState) (t : List ℚ) (c : List ℚ) (i p : Nat) : Prop :=
  ∀ k, k < fixed s.h2o - 1 → at? s c k i = at? s t k p

/-- C15, the part that holds: without water as a component the H and O entries are returned as
set, and the charge entry always is. Missing: the H2O, H and O entries when water is a
component; see `set_get_water_violated` and the last conclusion of
`set_get_water_conserved`. -/
theorem set_get_water_partial {g : List Int} {s : CState} {es : List Name}
    (hr : Ready g s es) (hsdv : s.sdv = false) (t : List ℚ)
    (ht : t.length = s.map.nxyz * s.comps.length) :
    ∃ s' c s'', setConcentrations s t = .ok s' ∧ getConcentrations s' = .ok (c, s'') ∧
      ∀ j i p por sat rv dens, g[i]? = some j → 0 ≤ j → Primary g j p →
        Params s p por sat rv dens → 0 < sat →
        (s.h2o = false → WaterReturned s t c i p) ∧
        at? s c (fixed s.h2o - 1) i = at? s t (fixed s.h2o - 1) p := by
  obtain ⟨s', c, s'', h1, h2, h3⟩ := set_get_cell hr hsdv t ht
  refine ⟨s', c, s'', h1, h2, ?_⟩
  intro j i p por sat rv dens hij hj hp hpar hsat
  obtain ⟨x, x', hst, ⟨hpor, hrv, hdens⟩, d, hd, hc⟩ := h3 j i p por sat rv dens hij hj hp hpar hsat
  have hv : 0 < por * sat * rv := by positivity
  obtain ⟨d', e1, e2, _, e4, e5, _⟩ := solution2conc_ok (u := s.units) hr.comps hr.gfwl
    (por * sat * rv) dens x'
  rw [hd] at e1
  simp only [Out.ok.injEq] at e1
  subst e1
  obtain ⟨w, hw0, _, ⟨th, gh, h, ⟨eh1, eh2⟩, ih, hth⟩, ⟨tx, go, o, ⟨eo1, eo2⟩, io, hto⟩⟩ := hst.water
  obtain ⟨tq, gq, q, ⟨eq1, eq2⟩, iq, htq⟩ := hst.charge
  have hlen : fixed s.h2o ≤ s.comps.length := by
    rw [hr.comps]; unfold fixed; split <;> simp [*]
  have hfix : 3 ≤ fixed s.h2o := by unfold fixed; split <;> omega
  refine ⟨fun hno k hk => ?_, ?_⟩
  · obtain ⟨dh, do'⟩ := e5 hno
    have hw := hw0 hno
    have f3 : fixed s.h2o = 3 := by simp [fixed, hno]
    rw [f3] at eh1 eh2 eo1 eo2 hk hlen
    have hk' : k = 0 ∨ k = 1 := by omega
    rcases hk' with rfl | rfl
    · unfold at?
      rw [hc 0 (by omega), dh gh eh2, eh1, hth, hw]
      have ghp : 0 < gh := hr.gfw gh (List.mem_of_getElem? eh2)
      rw [isMolar_unique ghp ih]
      simp only [mul_zero, add_zero]
      rw [conc_molar s.units th hv hdens ghp]
    · unfold at?
      rw [hc 1 (by omega), do' go eo2, eo1, hto, hw]
      have gop : 0 < go := hr.gfw go (List.mem_of_getElem? eo2)
      rw [isMolar_unique gop io]
      simp only [add_zero]
      rw [conc_molar s.units tx hv hdens gop]
  · unfold at?
    rw [hc _ (by omega), e4 gq eq2, eq1, htq]
    have gqp : 0 < gq := hr.gfw gq (List.mem_of_getElem? eq2)
    rw [isMolar_unique gqp iq, conc_molar s.units tq hv hdens gqp]

/-! ## Witnesses -/

/-- Three grid cells, the last inactive, the first two sharing reaction cell 0; water as a
component, sodium, mg/L. -/
def demo : CState :=
  { map := { nxyz := 3, nthreads := 1, count := 1, forward := [0, -1, -1], backward := [[0, 1]],
             ranges := [(0, 0)] },
    h2o := true, units := .mgL,
    comps := ["H2O".toList, "H".toList, "O".toList, "Charge".toList, "Na".toList],
    gfw := [18016 / 1000, 1008 / 1000, 16, 1, 23],
    por := [2 / 5, 1, 1], sat := [1 / 2, 1, 1], rv := [10, 1, 1], dens := [1, 1, 1],
    sdv := false,
    sol := fun n j => if n = 0 ∧ j = 0 then some ⟨0, 0, 0, 0, 1, 1, []⟩ else none }

/-- 900000 mg/L water and 230 mg/L sodium. -/
def demoT : List ℚ := [900000, 0, 0, 0, 0, 0, 0, 0, 0, 0, 0, 0, 230, 0, 0]

/-- Set then get on the witness. -/
def demoRun (s : CState) (t : List ℚ) : Option (List ℚ) :=
  match setConcentrations s t with
  | .ok s' => match getConcentrations s' with
    | .ok (c, _) => some c
    | _ => none
  | _ => none

theorem demo_ready : Ready [0, 0, -1] demo ["Na".toList] where
  con := by
    refine ⟨⟨by decide, by decide⟩, by decide, ?_, by decide, ?_, ?_, ?_, ?_⟩
    · intro n cells h
      match n with
      | 0 =>
        simp [demo] at h; subst h
        refine ⟨by simp, by decide, fun i => ?_⟩
        match i with
        | 0 => simp
        | 1 => simp
        | 2 => simp
        | i + 3 => simp
      | n + 1 => simp [demo] at h
    · intro i n
      match i, n with
      | 0, 0 => simp [demo]
      | 0, n + 1 => simp [demo]; omega
      | 1, n => cases n <;> (simp [demo]; try omega)
      | 2, n => cases n <;> (simp [demo]; try omega)
      | i + 3, n => cases n <;> simp [demo]
    · intro i x h hx
      match i with
      | 0 => simp at h; omega
      | 1 => simp at h; omega
      | 2 => simp at h; subst h; rfl
      | i + 3 => simp at h
    · intro i n cells h hi hne
      match n with
      | 0 =>
        simp [demo] at h; subst h
        simp at hi
        rcases hi with rfl | rfl
        · simp at hne
        · rfl
      | n + 1 => simp [demo] at h
    · exact ⟨rfl, by simp [demo, Contig]⟩
  glen := rfl
  comps := by decide
  elems := ⟨by decide, by
    intro e he
    simp only [List.mem_singleton] at he
    subst he
    decide⟩
  gfwl := rfl
  gfw := by decide +kernel
  porl := rfl
  satl := rfl
  rvl := rfl
  densl := rfl
  por := by decide +kernel
  rv := by decide +kernel
  dens := by decide +kernel
  sols := by
    rintro n j ⟨r, hr, h1, h2⟩
    match n with
    | 0 =>
      simp [demo] at hr; subst hr
      have : j = 0 := by simp at h1 h2; omega
      subst this
      exact ⟨_, rfl⟩
    | n + 1 => simp [demo] at hr

/-- The round trip on the witness: sodium comes back in both grid cells of the reaction cell,
the third grid cell is inactive. -/
example : (demoRun demo demoT).map (fun c => (c[12]?, c[13]?, c[14]?)) =
    some (some 230, some 230, some inactive) := by decide +kernel

/-- C15 is violated: the water entry comes back changed, because the mass of water is set to
(total oxygen)/55.5 while the molar mass of water is 18.016. -/
theorem set_get_water_violated :
    ∃ (g : List Int) (s : CState) (es : List Name) (t c : List ℚ),
      Ready g s es ∧ s.sdv = false ∧ t.length = s.map.nxyz * s.comps.length ∧
      demoRun s t = some c ∧ g[0]? = some 0 ∧ Primary g 0 0 ∧ ¬ WaterReturned s t c 0 0 := by
  have key : (match demoRun demo demoT with
      | some c => decide (at? demo c 0 0 ≠ at? demo demoT 0 0)
      | none => false) = true := by decide +kernel
  cases hrun : demoRun demo demoT with
  | none => rw [hrun] at key; simp at key
  | some c =>
    rw [hrun] at key
    refine ⟨[0, 0, -1], demo, ["Na".toList], demoT, c, demo_ready, rfl, by decide, hrun, rfl,
      ⟨rfl, fun i' _ => Nat.zero_le _⟩, fun h => ?_⟩
    simp only [decide_eq_true_eq] at key
    exact key (h 0 (by decide))

/-- The bound in C13 is needed: a positive amount below 1e-25 mol comes back as zero. -/
theorem set_get_tiny_lost :
    (demoRun demo [900000, 0, 0, 0, 0, 0, 0, 0, 0, 0, 0, 0, 1 / 10 ^ 25, 0, 0]).map
      (fun c => c[12]?) = some (some 0) := by decide +kernel

end Verif.Conc
