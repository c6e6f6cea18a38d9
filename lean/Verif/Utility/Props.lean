import Verif.Utility.Model
import Verif.Conc.Set

/-! # C114: solutions made from concentrations in the Utility instance -/

namespace Verif.Utility

open Verif.OMap Verif.NameDouble Verif.Grid Verif.Conc

/-! ## Specification -/

/-- Components as made by `FindComponents`, with positive gram formula weights. -/
structure Ready (s : UState) (es : List Name) : Prop where
  comps : s.comps = (if s.h2o then ["H2O".toList] else []) ++
    ["H".toList, "O".toList, "Charge".toList] ++ es
  elems : Elements es
  gfwl  : s.gfw.length = s.comps.length
  gfw   : ∀ x ∈ s.gfw, 0 < x

/-- Concentration and gram formula weight of component `k` in set `i` of `n` sets. -/
def UEntry (s : UState) (c : List ℚ) (n i k : Nat) (v g : ℚ) : Prop :=
  c[k * n + i]? = some v ∧ s.gfw[k]? = some g

/-- `x` holds the amounts of set `i` in one litre or, for mass fractions, in one kilogram
(a density of 1 kg/L makes one litre weigh one kilogram). -/
def Holds (s : UState) (es : List Name) (c : List ℚ) (n i : Nat) (x : Soln) : Prop :=
  Stored s.h2o s.units es (UEntry s c n i) 1 1 fresh x

/-! ## Lemmas -/

theorem utilRow_spec (h2o : Bool) (u : Units) (es : List Name) (he : Elements es)
    (comps : List Name) (hcomps : comps = (if h2o then ["H2O".toList] else []) ++
      ["H".toList, "O".toList, "Charge".toList] ++ es)
    (gfw row : List ℚ) (hg : gfw.length = comps.length) (hr : row.length = comps.length)
    (hpos : ∀ x ∈ gfw, 0 < x) :
    ∃ x', utilRow h2o u comps gfw row 1 =
        .ok (if 0 < x'.totalH ∧ 0 < x'.totalO then x' else fresh) ∧
      Stored h2o u es (fun k c g => row[k]? = some c ∧ gfw[k]? = some g) 1 1 fresh x' := by
  obtain ⟨x', h1, h2⟩ := setCell_spec h2o u es he comps hcomps gfw row hg hr hpos 1 1 1 1
    (by norm_num) fresh
  have h3 : ((1 : ℚ) * 1 * 1) = 1 := by norm_num
  rw [h3] at h2
  refine ⟨x', ?_, h2⟩
  have h10 : ¬ ((1 : ℚ) ≤ 0) := by norm_num
  cases h2o with
  | true =>
    simp only [if_true, List.cons_append, List.nil_append] at hcomps
    subst hcomps
    match gfw, row, hg, hr with
    | gw :: gh :: go :: gq :: gs, cw :: ch :: co :: cq :: cs, hg, hr =>
      have hgl : gs.length = es.length := by simpa using hg
      have hcl : cs.length = es.length := by simpa using hr
      obtain ⟨l, e1, _, _⟩ := elementMoles_ok u 1 1 es cs gs hcl hgl
      simp only [setCell, if_neg h10, mul_one, e1, Out.ok_bind] at h1
      injection h1 with h1
      subst h1
      simp only [utilRow, e1, Out.ok_bind, made, update]
      congr
  | false =>
    simp only [Bool.false_eq_true, if_false, List.cons_append, List.nil_append] at hcomps
    subst hcomps
    match gfw, row, hg, hr with
    | gh :: go :: gq :: gs, ch :: co :: cq :: cs, hg, hr =>
      have hgl : gs.length = es.length := by simpa using hg
      have hcl : cs.length = es.length := by simpa using hr
      obtain ⟨l, e1, _, _⟩ := elementMoles_ok u 1 1 es cs gs hcl hgl
      simp only [setCell, if_neg h10, mul_one, e1, Out.ok_bind] at h1
      injection h1 with h1
      subst h1
      simp only [utilRow, e1, Out.ok_bind, made, update]
      congr

theorem utilGather_ok (s : UState) (c : List ℚ) (n i : Nat) (hc : c.length = n * s.comps.length)
    (hi : i < n) : ∃ row, utilGather s c n i = .ok row ∧ row.length = s.comps.length ∧
      ∀ k v, row[k]? = some v → c[k * n + i]? = some v := by
  have key : ∀ k, k < s.comps.length → n * k + i < c.length := fun k hk => by
    rw [hc]
    calc n * k + i < n * k + n := by omega
      _ = n * (k + 1) := by ring
      _ ≤ n * s.comps.length := Nat.mul_le_mul_left _ hk
  refine ⟨(List.range s.comps.length).map (fun k => (c[n * k + i]?).getD 0), ?_, by simp, ?_⟩
  · unfold utilGather
    apply mapM_ok
    intro k hk
    have := key k (List.mem_range.mp hk)
    rw [List.getElem?_eq_getElem this]
    exact idx_nat (List.getElem?_eq_getElem this)
  · intro k v hv
    obtain ⟨hk, hv'⟩ := List.getElem?_eq_some_iff.mp hv
    simp only [List.length_map, List.length_range] at hk
    have := key k hk
    simp only [List.getElem_map, List.getElem_range, List.getElem?_eq_getElem this,
      Option.getD_some] at hv'
    rw [Nat.mul_comm k n, List.getElem?_eq_getElem this, hv']

/-! ## Theorems -/

/-- What is true of `Concentrations2Utility` for `n` sets of concentrations. Solutions 1 to `n` get
the temperatures and pressures given, all other solutions of the Utility instance are left. Solution
`i + 1` holds the amounts of set `i` if these have positive hydrogen and oxygen, and is pure water
otherwise. For mass fractions with water as component the user density of the first `n` grid cells
has to be 1. -/
theorem toUtility_partial (s : UState) (es : List Name) (hs : Ready s es) (n : Nat)
    (c tc p : List ℚ) (hc : c.length = n * s.comps.length) (ht : tc.length = n)
    (hp : p.length = n)
    (hd : s.h2o = true → s.units = .massFraction → ∀ i < n, s.dens[i]? = some 1) :
    ∃ s', toUtility s c tc p = .ok s' ∧ s'.h2o = s.h2o ∧ s'.units = s.units ∧
      s'.comps = s.comps ∧ s'.gfw = s.gfw ∧ s'.dens = s.dens ∧
      (∀ i < n, ∃ x y, s'.util (i + 1) = some x ∧ some x.tc = tc[i]? ∧ some x.patm = p[i]? ∧
        Holds s es c n i y ∧ (0 < y.totalH → 0 < y.totalO → x.sol = y) ∧
        (¬ (0 < y.totalH ∧ 0 < y.totalO) → x.sol = fresh)) ∧
      ∀ j : Int, j < 1 ∨ (n : Int) < j → s'.util j = s.util j := by
  have hne : s.comps.length ≠ 0 := by
    rw [hs.comps]; simp
  have hgne : s.gfw ≠ [] := by
    intro h
    have := hs.gfwl
    rw [h] at this
    exact hne this.symm
  have hns : c.length / s.comps.length = n := by
    rw [hc]; exact Nat.mul_div_cancel _ (by omega)
  have step : ∀ (m : Int → Option USoln) i, i < n → ∃ x y,
      utilStep s c tc p n m i = .ok (fun j => if j = (i : Int) + 1 then some x else m j) ∧
        some x.tc = tc[i]? ∧ some x.patm = p[i]? ∧
        Holds s es c n i y ∧ (0 < y.totalH → 0 < y.totalO → x.sol = y) ∧
        (¬ (0 < y.totalH ∧ 0 < y.totalO) → x.sol = fresh) := by
    intro m i hi
    obtain ⟨row, r1, r2, r3⟩ := utilGather_ok s c n i hc hi
    obtain ⟨y, y1, y2⟩ := utilRow_spec s.h2o s.units es hs.elems s.comps hs.comps s.gfw row
      hs.gfwl r2 hs.gfw
    have hdn : rowDens s i = .ok 1 := by
      unfold rowDens
      split_ifs with h
      · exact idx_nat (hd h.1 h.2 i hi)
      · rfl
    have hti : i < tc.length := by omega
    have hpi : i < p.length := by omega
    refine ⟨⟨if 0 < y.totalH ∧ 0 < y.totalO then y else fresh, tc[i], p[i]⟩, y, ?_, ?_, ?_, ?_, ?_,
      ?_⟩
    · unfold utilStep
      rw [r1, Out.ok_bind, hdn, Out.ok_bind, y1, Out.ok_bind,
        idx_nat (List.getElem?_eq_getElem hti), idx_nat (List.getElem?_eq_getElem hpi)]
      rfl
    · exact (List.getElem?_eq_getElem hti).symm
    · exact (List.getElem?_eq_getElem hpi).symm
    · exact y2.imp (fun k v g h => ⟨r3 k v h.1, h.2⟩)
    · intro a b; exact if_pos ⟨a, b⟩
    · intro a; exact if_neg a
  have loop : ∀ k, k ≤ n → ∃ m', (List.range k).foldlM (utilStep s c tc p n) s.util = .ok m' ∧
      (∀ i < k, ∃ x y, m' (i + 1) = some x ∧ some x.tc = tc[i]? ∧ some x.patm = p[i]? ∧
        Holds s es c n i y ∧ (0 < y.totalH → 0 < y.totalO → x.sol = y) ∧
        (¬ (0 < y.totalH ∧ 0 < y.totalO) → x.sol = fresh)) ∧
      ∀ j : Int, j < 1 ∨ (k : Int) < j → m' j = s.util j := by
    intro k
    induction k with
    | zero => intro _; exact ⟨s.util, rfl, by intro i hi; omega, fun _ _ => rfl⟩
    | succ k ih =>
      intro hk
      obtain ⟨m', h1, h2, h3⟩ := ih (by omega)
      obtain ⟨x, y, e1, e2⟩ := step m' k (by omega)
      refine ⟨_, by rw [List.range_succ, List.foldlM_append, h1, Out.ok_bind, List.foldlM_cons, e1,
        Out.ok_bind]; rfl, ?_, ?_⟩
      · intro i hi
        by_cases hik : i = k
        · subst hik
          exact ⟨x, y, by simp, e2⟩
        · obtain ⟨x', y', e3, e4⟩ := h2 i (by omega)
          exact ⟨x', y', by rw [if_neg (by omega)]; exact e3, e4⟩
      · intro j hj
        rw [if_neg (by push_cast at hj; omega)]
        exact h3 j (by push_cast at hj; omega)
  obtain ⟨m', h1, h2, h3⟩ := loop n le_rfl
  refine ⟨{ s with util := m' }, ?_, rfl, rfl, rfl, rfl, rfl, h2, h3⟩
  unfold toUtility
  rw [if_neg hne, if_neg hgne, hns]
  simp only [h1, Out.ok_bind]

/-- A module with water as component and one element. -/
def demo (u : Units) (dens : List ℚ) : UState :=
  { h2o := true, units := u,
    comps := ["H2O".toList, "H".toList, "O".toList, "Charge".toList, "Na".toList],
    gfw := [18, 1, 16, 1, 23], dens := dens, util := fun _ => none }

theorem demo_ready (u : Units) (dens : List ℚ) : Ready (demo u dens) ["Na".toList] where
  comps := rfl
  elems := ⟨by decide, by decide⟩
  gfwl := rfl
  gfw := by
    intro x hx
    simp only [demo, List.mem_cons, List.not_mem_nil, or_false] at hx
    rcases hx with rfl | rfl | rfl | rfl | rfl <;> norm_num

/-- The solution with number 1 after a call. -/
def first (o : Out UState) : Option Soln :=
  match o with
  | .ok s => (s.util 1).map USoln.sol
  | _ => none

/-- A case of the theorem: one kilogram with a mass fraction of water of 9/10. -/
theorem demo_case :
    first (toUtility (demo .massFraction [1]) [9/10, 0, 0, 0, 23/1000] [25] [1]) =
      some { totalH := 100, totalO := 50, cb := 0, massWater := 100 / 111, solnVol := 1,
             density := 1, totals := [("Na".toList, 1)] } := by
  decide +kernel

/-- Mass fractions with water as component: the amount of water is multiplied by the density
the user gave for a grid cell, so the solution does not hold one kilogram. -/
theorem mass_fraction_violated : ∃ s es c tc p x, Ready s es ∧ s.dens = [2] ∧
    first (toUtility s c tc p) = some x ∧ ¬ Holds s es c 1 0 x := by
  refine ⟨demo .massFraction [2], ["Na".toList], [9/10, 0, 0, 0, 23/1000], [25], [1],
    { totalH := 200, totalO := 100, cb := 0, massWater := 200 / 111, solnVol := 1, density := 1,
      totals := [("Na".toList, 1)] }, demo_ready _ _, rfl, by decide +kernel, ?_⟩
  intro h
  obtain ⟨w, -, h1, ⟨c, g, m, e1, e2, e3⟩, -⟩ := h.water
  obtain ⟨cw, gw, w1, w2⟩ := h1 rfl
  simp only [UEntry, demo, fixed] at e1 w1
  norm_num at e1 w1
  obtain ⟨rfl, rfl⟩ := e1
  obtain ⟨rfl, rfl⟩ := w1
  simp only [demo, IsMolar] at e2 w2
  norm_num at e2 w2 e3
  linarith

/-- Amounts without positive hydrogen or oxygen give one kilogram of pure water instead, and the
elements given are dropped. -/
theorem not_positive_violated : ∃ s es c tc p x, Ready s es ∧
    first (toUtility s c tc p) = some x ∧ ¬ Holds s es c 1 0 x ∧ x = fresh := by
  refine ⟨demo .molL [], ["Na".toList], [0, 0, 1, 0, 1], [25], [1], fresh, demo_ready _ _,
    by decide +kernel, ?_, rfl⟩
  intro h
  obtain ⟨c, g, m, e1, e2, e3⟩ := h.elem 0 "Na".toList rfl
  simp only [fresh, find] at e3
  exact absurd e3 (by simp)

/-- Before `FindComponents` the number of solutions is a division by zero; the message that
`FindComponents` must be called is not reached. -/
theorem before_findComponents_violated (s : UState) (h : s.comps = []) (c tc p : List ℚ) :
    toUtility s c tc p = .ub := by
  unfold toUtility
  rw [h]
  rfl

/-- More sets of mass fractions than grid cells read past the end of the densities. -/
theorem more_than_cells_violated : ∃ s es c tc p, Ready s es ∧ s.dens.length = 1 ∧
    c.length = 2 * s.comps.length ∧ tc.length = 2 ∧ p.length = 2 ∧ toUtility s c tc p = .ub := by
  refine ⟨demo .massFraction [1], ["Na".toList], [9/10, 9/10, 0, 0, 0, 0, 0, 0, 0, 0], [25, 25],
    [1, 1], demo_ready _ _, rfl, rfl, rfl, rfl, rfl⟩

end Verif.Utility
