import Verif.InitCond.Run
import Verif.Mixing.SolutionProps

/-! # Mixtures of the reactants of the code -/

namespace Verif.InitCond

open Verif.OMap Verif.NameDouble Verif.Store Verif.Mapping Verif.Grid Verif.Transfer Verif.Mixing
  Verif.Ranges

/-! ## Mixtures -/

theorem parts_cons {E : Type} (ents : Int → Option E) (p : Int × ℚ) (m : Mix) (X : E → ℚ) :
    wsum X (parts ents (p :: m)) = p.2 * (ents p.1).elim 0 X + wsum X (parts ents m) := by
  unfold parts
  rw [List.filterMap_cons]
  cases h : ents p.1 with
  | none => simp
  | some e => simp [wsum_cons]

theorem parts_insert {E : Type} (ents : Int → Option E) (X : E → ℚ) (n : Int) (f : ℚ) (m : Mix) :
    Sorted m → wsum X (parts ents (Mix.add m n f)) =
      wsum X (parts ents m) + f * (ents n).elim 0 X := by
  induction m with
  | nil =>
    intro _
    unfold Mix.add
    simp only [find, OMap.insert]
    rw [parts_cons]
    simp [parts, wsum]
  | cons p m ih =>
    intro hs
    obtain ⟨a, v⟩ := p
    obtain ⟨h1, h2⟩ := List.pairwise_cons.mp hs
    unfold Mix.add at ih ⊢
    simp only [find, OMap.insert]
    by_cases e : n = a
    · subst e
      simp only [if_true, lt_irrefl, if_false]
      rw [parts_cons, parts_cons]
      simp only
      ring
    · simp only [e, if_false]
      have ih := ih h2
      cases hf : find m n with
      | none =>
        simp only [hf] at ih ⊢
        by_cases hlt : n < a
        · rw [if_pos hlt, parts_cons, parts_cons]; simp only; ring
        · rw [if_neg hlt, parts_cons, parts_cons, ih]; ring
      | some c =>
        simp only [hf] at ih ⊢
        have hlt : ¬ n < a := by
          have := h1 _ (mem_of_find hf)
          simp only at this
          omega
        rw [if_neg hlt, parts_cons, parts_cons, ih]; ring

theorem sorted_add {m : Mix} (hs : Sorted m) (n : Int) (f : ℚ) : Sorted (Mix.add m n f) := by
  unfold Mix.add
  split <;> exact sorted_insert hs _ _

theorem parts_multiply {E : Type} (ents : Int → Option E) (X : E → ℚ) (x : ℚ) (m : Mix) :
    wsum X (parts ents (Mix.multiply m x)) = x * wsum X (parts ents m) := by
  induction m with
  | nil => simp [Mix.multiply, parts, wsum]
  | cons p m ih =>
    unfold Mix.multiply at ih ⊢
    rw [List.map_cons, parts_cons, parts_cons, ih]
    simp only
    ring

theorem nonneg_add {m : Mix} (hm : ∀ p ∈ m, 0 ≤ p.2) (n : Int) {f : ℚ} (hf : 0 ≤ f) :
    ∀ p ∈ Mix.add m n f, 0 ≤ p.2 := by
  unfold Mix.add
  split
  · rename_i c hc
    intro p hp
    rcases mem_insert_key hp with rfl | hp
    · have := hm _ (mem_of_find hc)
      simp only at this ⊢
      linarith
    · exact hm p hp
  · intro p hp
    rcases mem_insert_key hp with rfl | hp
    · exact hf
    · exact hm p hp

/-- The mixture of a kind other than solutions. -/
theorem solidMix_spec (units : Nat) (por rv : ℚ) (n1 n2 : Int) (f1 : ℚ) (hu : units ≤ 2) :
    ∃ m, solidMix units por rv n1 n2 f1 = .ok m ∧
      ∀ {E : Type} (ents : Int → Option E) (X : E → ℚ) (φ : ℚ), Factor por rv units φ →
        wsum X (parts ents m) = φ * (f1 * (ents n1).elim 0 X + (1 - f1) * second ents X n2) := by
  have key : ∀ pf : ℚ, idx (porosityFactor por rv) (units : Int) = .ok pf →
      (∀ φ, Factor por rv units φ → φ = pf) → ∃ m, solidMix units por rv n1 n2 f1 = .ok m ∧
      ∀ {E : Type} (ents : Int → Option E) (X : E → ℚ) (φ : ℚ), Factor por rv units φ →
        wsum X (parts ents m) = φ * (f1 * (ents n1).elim 0 X + (1 - f1) * second ents X n2) := by
    intro pf hpf hφ
    unfold solidMix
    rw [hpf, Out.ok_bind]
    refine ⟨_, rfl, ?_⟩
    intro E ents X φ hf
    rw [hφ φ hf, parts_multiply]
    have h0 : Sorted ([] : Mix) := List.Pairwise.nil
    have z : wsum X (parts ents ([] : Mix)) = 0 := by simp [parts, wsum]
    unfold second
    split
    · rw [parts_insert _ _ _ _ _ (sorted_add h0 _ _), parts_insert _ _ _ _ _ h0, z]; ring
    · rw [parts_insert _ _ _ _ _ h0, z]; ring
  rcases units with _ | _ | _ | u
  · exact key rv rfl (fun φ h => by cases h; rfl)
  · exact key (rv * por) rfl (fun φ h => by cases h; rfl)
  · exact key (rv * (1 - por)) rfl (fun φ h => by cases h; rfl)
  · omega

theorem view_wsum {E : Type} (as : Reactant → Option E) (ents : Int → Option Entity) (G : E → ℚ)
    (m : Mix) : wsum G (parts (view as ents) m) =
      wsum (fun e : Entity => (e.asRx.bind as).elim 0 G) (parts ents m) := by
  induction m with
  | nil => rfl
  | cons p m ih =>
    rw [parts_cons, parts_cons, ih]
    unfold view
    cases ents p.1 <;> rfl

theorem sol_wsum (ents : Int → Option Entity) (G : Solution → ℚ) (m : Mix) :
    wsum G (parts (fun n => (ents n).bind Entity.asSol) m) = wsum (memberOf G) (parts ents m) := by
  induction m with
  | nil => rfl
  | cons p m ih =>
    rw [parts_cons, parts_cons, ih]
    cases ents p.1 with
    | none => rfl
    | some e => cases e <;> rfl

section

variable {F : Name → Name} {T : GasType} {pb : Bin Entity} (hst : Stock F T pb)

include hst

theorem view_valid {E : Type} (as : Reactant → Option E) (V : E → Prop) {k : Kind}
    (hk : k ≠ .solution) (hck : CellKind k)
    (h : ∀ r : Reactant, r.Valid F T → ∀ e, as r = some e → V e) :
    ∀ n e, view as (pb k) n = some e → V e := by
  intro n e he
  obtain ⟨r, hr, he⟩ := Option.bind_eq_some_iff.mp he
  obtain ⟨x, hx, hr⟩ := Option.bind_eq_some_iff.mp hr
  obtain ⟨r', rfl, hv, _⟩ := hst.rxs k n x hk hck hx
  cases hr
  exact h _ hv e he

/-- The real mixing of a kind other than solutions. -/
theorem realMix_spec {k : Kind} (hk : k ≠ .solution) (hck : CellKind k) (m : Mix) :
    ∃ r, realMix k (pb k) m = .ok (.rx r) ∧
      ∀ q, measure q k r = wsum (amountOf q k) (parts (pb k) m) := by
  have sums : ∀ {E : Type} (as : Reactant → Option E) (G : E → ℚ) (q : Quantity)
      (_ : ∀ r, measure q k r = (as r).elim 0 G),
      wsum G (parts (view as (pb k)) m) = wsum (amountOf q k) (parts (pb k) m) := by
    intro E as G q h
    rw [view_wsum]
    congr 1
    funext e
    cases e with
    | sol s => rfl
    | rx r => exact (h r).symm
  have zero : ∀ q, (∀ r, measure q k r = 0) → 0 = wsum (amountOf q k) (parts (pb k) m) := by
    intro q h
    have : amountOf q k = fun _ => 0 := by
      funext e
      cases e with
      | sol s => rfl
      | rx r => exact h r
    rw [this]
    simp [wsum]
  rcases hck with rfl | rfl | rfl | rfl | rfl | rfl | rfl
  · exact absurd rfl hk
  · refine ⟨_, rfl, fun q => ?_⟩
    have hv := view_valid hst Reactant.asExch Exchange.Valid hk (by simp [CellKind])
      (fun r h e he => by cases r <;> cases he; exact h)
    cases q with
    | exch f el =>
      rw [← sums Reactant.asExch (exchAmount f el) _ (fun r => by cases r <;> rfl)]
      exact (exchange_mix _ hv m f el).1
    | _ => exact zero _ (fun r => by cases r <;> rfl)
  · refine ⟨_, rfl, fun q => ?_⟩
    have hv := view_valid hst Reactant.asGas (fun e => e.Valid ∧ e.type = T) hk (by simp [CellKind])
      (fun r h e he => by cases r <;> cases he; exact h)
    cases q with
    | gas n =>
      rw [← sums Reactant.asGas (gasAmount GasComp.moles n) _ (fun r => by cases r <;> rfl)]
      exact (gas_mix_partial _ T hv m).1 _ (by simp [gasAmounts]) n
    | _ => exact zero _ (fun r => by cases r <;> rfl)
  · refine ⟨_, rfl, fun q => ?_⟩
    have hv := view_valid hst Reactant.asKin Kinetics.Valid hk (by simp [CellKind])
      (fun r h e he => by cases r <;> cases he; exact h)
    cases q with
    | kin n =>
      rw [← sums Reactant.asKin (kinAmount KinComp.m n) _ (fun r => by cases r <;> rfl)]
      exact kinetics_mix _ hv m _ (by simp [kinAmounts]) n
    | _ => exact zero _ (fun r => by cases r <;> rfl)
  · refine ⟨_, rfl, fun q => ?_⟩
    have hv := view_valid hst Reactant.asPP (PPInv F) hk (by simp [CellKind])
      (fun r h e he => by cases r <;> cases he; exact h)
    cases q with
    | pp n =>
      rw [← sums Reactant.asPP (ppAmount PPComp.moles n) _ (fun r => by cases r <;> rfl)]
      exact (pp_mix_partial _ F (fun n e h => (hv n e h).1) (fun n e h => (hv n e h).2) m).1 _
        (by simp [ppAmounts]) n
    | _ => exact zero _ (fun r => by cases r <;> rfl)
  · refine ⟨_, rfl, fun q => ?_⟩
    have hv := view_valid hst Reactant.asSS SSAssemblage.Valid hk (by simp [CellKind])
      (fun r h e he => by cases r <;> cases he; exact h)
    cases q with
    | ss s n =>
      rw [← sums Reactant.asSS (ssAmount SSComp.moles s n) _ (fun r => by cases r <;> rfl)]
      exact ss_mix _ hv m _ (by simp [ssAmounts]) s n
    | _ => exact zero _ (fun r => by cases r <;> rfl)
  · refine ⟨_, rfl, fun q => ?_⟩
    have hv := view_valid hst Reactant.asSurf Surface.Valid hk (by simp [CellKind])
      (fun r h e he => by cases r <;> cases he; exact h)
    cases q with
    | surf f el =>
      rw [← sums Reactant.asSurf (surfAmount f el) _ (fun r => by cases r <;> rfl)]
      exact (surface_mix _ hv m f el []).1
    | sites f =>
      rw [← sums Reactant.asSurf (siteAmount SurfComp.moles f) _ (fun r => by cases r <;> rfl)]
      exact (surface_mix _ hv m f [] []).2.1 _ (by simp [siteAmounts])
    | diffuse n el =>
      rw [← sums Reactant.asSurf (diffuseAmount n el) _ (fun r => by cases r <;> rfl)]
      exact (surface_mix _ hv m [] el n).2.2.2
    | _ => exact zero _ (fun r => by cases r <;> rfl)

/-- The real mixing of solutions. -/
theorem solution_spec {por sat rv f1 : ℚ} (n1 n2 : Int) (h1 : pb .solution n1 ≠ none)
    (h2 : 0 ≤ n2 → pb .solution n2 ≠ none) (hp : 0 ≤ por) (hs : 0 ≤ sat) (hr : 0 ≤ rv)
    (hf0 : 0 ≤ f1) (hf1 : f1 ≤ 1) :
    ∃ m s, solutionMix real pb por sat rv n1 n2 f1 = .ok m ∧
      realMix .solution (pb .solution) m = .ok (.sol s) ∧
      ∀ X, X ∈ extensives ∨ (∃ el, X = fun a => val a.totals el) →
        X s = rv * por * sat * (f1 * (pb .solution n1).elim 0 (perVolume X) +
          (1 - f1) * second (pb .solution) (perVolume X) n2) := by
  have hV : 0 ≤ por * sat * rv := mul_nonneg (mul_nonneg hp hs) hr
  obtain ⟨e1, he1⟩ := Option.ne_none_iff_exists'.mp h1
  obtain ⟨s1, rfl, v1, w1, o1⟩ := hst.sols n1 e1 he1
  -- a mixture with factors that are not negative has a result with the sums of the parts
  have fin : ∀ m : Mix, (∀ p ∈ m, 0 ≤ p.2) → ∃ s,
      realMix .solution (pb .solution) m = .ok (.sol s) ∧
      ∀ X, X ∈ extensives ∨ (∃ el, X = fun a => val a.totals el) →
        X s = wsum (memberOf X) (parts (pb .solution) m) := by
    intro m hm
    have ho : ∀ n a, (pb .solution n).bind Entity.asSol = some a →
        a.Ordered ∧ 0 < a.massWater := by
      intro n a h
      obtain ⟨e, he, ha⟩ := Option.bind_eq_some_iff.mp h
      obtain ⟨s, rfl, _, w, o⟩ := hst.sols n e he
      cases ha
      exact ⟨o, w⟩
    obtain ⟨s, hsx⟩ := addAll_exists (parts (fun n => (pb .solution n).bind Entity.asSol) m) (by
      intro p hp
      obtain ⟨q, hq, hq'⟩ := List.mem_filterMap.mp hp
      obtain ⟨a, ha, rfl⟩ := Option.map_eq_some_iff.mp hq'
      exact ⟨(ho _ _ ha).2, hm q hq⟩) Solution.zero (le_refl _)
    rw [← mix_eq] at hsx
    refine ⟨s, by simp [realMix, hsx], ?_⟩
    obtain ⟨x1, x2, _⟩ := mix_extensive _ m s (fun n a h => (ho n a h).1) hsx
    rintro X (hX | ⟨el, rfl⟩)
    · rw [x1 X hX, sol_wsum]
    · exact (x2 el).trans (sol_wsum _ _ _)
  have h0 : Sorted ([] : Mix) := List.Pairwise.nil
  have z : ∀ X : Entity → ℚ, wsum X (parts (pb .solution) ([] : Mix)) = 0 := by
    intro X; simp [parts, wsum]
  have e1' : 0 ≤ f1 * por * sat * rv / s1.solnVol := by
    have : f1 * por * sat * rv = f1 * (por * sat * rv) := by ring
    rw [this]
    exact div_nonneg (mul_nonneg hf0 hV) (le_of_lt v1)
  have m1 : ∀ p ∈ Mix.add [] n1 (f1 * por * sat * rv / s1.solnVol), 0 ≤ p.2 :=
    nonneg_add (by simp) n1 e1'
  by_cases hn : 0 ≤ n2
  · obtain ⟨e2, he2⟩ := Option.ne_none_iff_exists'.mp (h2 hn)
    obtain ⟨s2, rfl, v2, w2, o2⟩ := hst.sols n2 e2 he2
    have e2' : 0 ≤ (1 - f1) * por * sat * rv / s2.solnVol := by
      have : (1 - f1) * por * sat * rv = (1 - f1) * (por * sat * rv) := by ring
      rw [this]
      exact div_nonneg (mul_nonneg (by linarith) hV) (le_of_lt v2)
    obtain ⟨s, k1, k2⟩ := fin (Mix.add (Mix.add [] n1 (f1 * por * sat * rv / s1.solnVol)) n2
      ((1 - f1) * por * sat * rv / s2.solnVol)) (nonneg_add m1 n2 e2')
    refine ⟨_, s, ?_, k1, ?_⟩
    · unfold solutionMix
      simp only [he1, he2, show ¬ real.vol (.sol s1) = 0 from ne_of_gt v1,
        show ¬ real.vol (.sol s2) = 0 from ne_of_gt v2, hn, if_true, if_false]
      rfl
    · intro X hX
      rw [k2 X hX, parts_insert _ _ _ _ _ (sorted_add h0 _ _), parts_insert _ _ _ _ _ h0, z, he1, he2]
      unfold second
      rw [if_pos hn, he2]
      simp only [Option.elim_some, memberOf, perVolume]
      ring
  · obtain ⟨s, k1, k2⟩ := fin (Mix.add [] n1 (f1 * por * sat * rv / s1.solnVol)) m1
    refine ⟨_, s, ?_, k1, ?_⟩
    · unfold solutionMix
      simp only [he1, show ¬ real.vol (.sol s1) = 0 from ne_of_gt v1, hn, if_false]
      rfl
    · intro X hX
      rw [k2 X hX, parts_insert _ _ _ _ _ h0, z, he1]
      unfold second
      rw [if_neg hn]
      simp only [Option.elim_some, memberOf, perVolume]
      ring

end

end Verif.InitCond
