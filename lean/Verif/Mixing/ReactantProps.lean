import Verif.Mixing.ReactantLemmas

/-! # C49, C52, C53: mixed reactants -/

namespace Verif.Mixing

open Verif.OMap Verif.NameDouble

/-- C49, exchangers. For every mixture: moles of every element on every exchanger, and the
charge, are the sums over the parts. -/
theorem exchange_mix (ents : Int → Option Exchange) (hV : ∀ n e, ents n = some e → e.Valid)
    (m : Mix) (f el : Name) :
    exchAmount f el (Exchange.mix ents m) = wsum (exchAmount f el) (parts ents m) ∧
    exchCharge f (Exchange.mix ents m) = wsum (exchCharge f) (parts ents m) := by
  have key : ∀ (A : ExchComp → ℚ), (∀ c a x, a.formula ≠ [] ∧ Sorted a.totals → x ≠ 0 →
      a.formula = c.formula → A (c.add a x) = A c + x * A a) → (∀ a x, A (a.mul x) = x * A a) →
      sumBy (fun c => c.formula = f) A (Exchange.mix ents m) =
        wsum (sumBy (fun c => c.formula = f) A) (parts ents m) := by
    intro A h1 h2
    unfold Exchange.mix
    rw [mixWith_sum Exchange.add (sumBy (fun c => c.formula = f) A) (fun _ => True) Exchange.Valid
      ?_ ents hV m [] trivial, sumBy_nil, zero_add]
    intro s a x _ ha
    refine ⟨trivial, ?_⟩
    unfold Exchange.add
    split
    · rename_i e; rw [e]; ring
    · rename_i hx
      refine addComps_sum (V := fun c : ExchComp => c.formula ≠ [] ∧ Sorted c.totals)
        ⟨?_, ?_, ?_, ?_, ?_⟩ a s ha
      · intro c a h; simp only [decide_eq_true_eq] at h; rw [h]
      · intro c a h hv
        simp only [decide_eq_true_eq] at h
        rw [(exch_add c a hx hv.1 h).1]
      · intro c a h hv
        simp only [decide_eq_true_eq] at h
        exact h1 c a x hv hx h
      · intro a; rfl
      · intro a; exact h2 a x
  refine ⟨key _ ?_ ?_, key _ ?_ ?_⟩
  · intro c a x hv hx h
    rw [(exch_add c a hx hv.1 h).2.1]
    exact val_addExtensive _ _ _ hv.2 _
  · intro a x; exact val_multiply _ _ _
  · intro c a x hv hx h
    rw [(exch_add c a hx hv.1 h).2.2]; ring
  · intro a x; simp [ExchComp.mul]; ring

/-- C49, equilibrium phases. For every mixture of assemblages in which a phase has the same
reaction formula everywhere: moles of every phase, and of every element, are the sums over
the parts. Without that premise it fails (`pp_mix_violated`). -/
theorem pp_mix_partial (ents : Int → Option PPAssemblage) (F : Name → Name)
    (hV : ∀ n e, ents n = some e → e.Valid)
    (hF : ∀ n e, ents n = some e → ∀ q ∈ e.comps, q.2.addFormula = F q.1) (m : Mix) :
    (∀ A ∈ ppAmounts, ∀ n, ppAmount A n (PPAssemblage.mix ents m) =
      wsum (ppAmount A n) (parts ents m)) ∧
    (∀ el, val (PPAssemblage.mix ents m).eltList el =
      wsum (fun e => val e.eltList el) (parts ents m)) := by
  have h0 : PPInv F ⟨[], []⟩ :=
    ⟨⟨List.Pairwise.nil, by simp, by simp, List.Pairwise.nil⟩, by simp⟩
  have hent : ∀ n e, ents n = some e → PPInv F e := fun n e h => ⟨hV n e h, hF n e h⟩
  constructor
  · intro A hA n
    unfold PPAssemblage.mix
    rw [mixWith_sum PPAssemblage.add (ppAmount A n) (PPInv F) (PPInv F) ?_ ents hent m _ h0]
    · simp [ppAmount, find]
    · intro s a x hs ha
      unfold PPAssemblage.add
      split
      · rename_i e; rw [e]; exact ⟨hs, by ring⟩
      · rename_i hx
        obtain ⟨e1, e2, e3⟩ := pp_entries F hx A hA a.comps ha.1.sorted
          (fun q hq => ⟨ha.1.keyed q hq, ha.1.named q hq, ha.2 q hq⟩) s.comps hs.1.sorted
          (fun q hq => ⟨hs.1.keyed q hq, hs.1.named q hq, hs.2 q hq⟩)
        refine ⟨⟨⟨e1, fun q hq => (e2 q hq).1, fun q hq => (e2 q hq).2.1,
          sorted_addExtensive _ _ hs.1.elts⟩, fun q hq => (e2 q hq).2.2⟩, e3 n⟩
  · intro el
    unfold PPAssemblage.mix
    rw [mixWith_sum PPAssemblage.add (fun e => val e.eltList el) (fun _ => True) (PPInv F) ?_
      ents hent m _ trivial]
    · simp [val, find]
    · intro s a x _ ha
      refine ⟨trivial, ?_⟩
      unfold PPAssemblage.add
      split
      · rename_i e; rw [e]; ring
      · exact val_addExtensive _ _ _ ha.1.elts _

/-- Amounts of a kinetic reactant. -/
def kinAmounts : List (KinComp → ℚ) := [KinComp.m, KinComp.m0, KinComp.moles]

/-- C49, kinetic reactants. -/
theorem kinetics_mix (ents : Int → Option Kinetics) (hV : ∀ n e, ents n = some e → e.Valid)
    (m : Mix) (A : KinComp → ℚ) (hA : A ∈ kinAmounts) (n : Name) :
    kinAmount A n (Kinetics.mix ents m) = wsum (kinAmount A n) (parts ents m) := by
  unfold Kinetics.mix
  rw [mixWith_sum Kinetics.add (kinAmount A n) (fun _ => True) Kinetics.Valid ?_ ents hV m _
    trivial]
  · simp [kinAmount, sumBy_nil]
  · intro s a x _ ha
    refine ⟨trivial, ?_⟩
    unfold Kinetics.add
    split
    · rename_i e; rw [e]; ring
    · rename_i hx
      refine addComps_sum (V := fun c : KinComp => c.rateName ≠ []) ⟨?_, ?_, ?_, ?_, ?_⟩
        a.comps s.comps ha
      · intro c a h; simp only [decide_eq_true_eq] at h; rw [h]
      · intro c a h hv
        unfold KinComp.add
        rw [if_neg hx, if_neg hv]
      · intro c a h hv
        unfold KinComp.add
        rw [if_neg hx, if_neg hv]
        simp only [kinAmounts, List.mem_cons, List.not_mem_nil, or_false] at hA
        rcases hA with rfl | rfl | rfl <;> simp <;> ring
      · intro a; rfl
      · intro a
        simp only [kinAmounts, List.mem_cons, List.not_mem_nil, or_false] at hA
        rcases hA with rfl | rfl | rfl <;> simp [KinComp.mul] <;> ring

/-- C49, solid solutions: every component of every solid solution. -/
theorem ss_mix (ents : Int → Option SSAssemblage)
    (hV : ∀ n e, ents n = some e → SSAssemblage.Valid e) (m : Mix) (A : SSComp → ℚ)
    (hA : A ∈ ssAmounts) (s n : Name) :
    ssAmount A s n (SSAssemblage.mix ents m) = wsum (ssAmount A s n) (parts ents m) := by
  unfold SSAssemblage.mix
  rw [mixWith_sum SSAssemblage.add (ssAmount A s n) SSAssemblage.Valid SSAssemblage.Valid ?_ ents
    hV m _ ⟨List.Pairwise.nil, by simp, by simp⟩]
  · simp [ssAmount, find]
  · intro e a x he ha
    unfold SSAssemblage.add
    split
    · rename_i h; rw [h]; exact ⟨he, by ring⟩
    · rename_i hx
      obtain ⟨h1, h2⟩ := ss_entries hx A hA n a ha e he
      exact ⟨h1, h2 s⟩

/-- Amounts of surface sites. -/
def siteAmounts : List (SurfComp → ℚ) := [SurfComp.moles, SurfComp.chargeBalance]

/-- Amounts of a charged surface. -/
def chargeAmounts : List (SurfCharge → ℚ) :=
  [SurfCharge.grams, SurfCharge.chargeBalance, SurfCharge.massWater]

/-- C49, surfaces: sites, elements on the sites, grams, charge, water and elements of the
diffuse layer. -/
theorem surface_mix (ents : Int → Option Surface) (hV : ∀ n e, ents n = some e → e.Valid)
    (m : Mix) (f el n : Name) :
    surfAmount f el (Surface.mix ents m) = wsum (surfAmount f el) (parts ents m) ∧
    (∀ A ∈ siteAmounts, siteAmount A f (Surface.mix ents m) =
      wsum (siteAmount A f) (parts ents m)) ∧
    (∀ A ∈ chargeAmounts, chargeAmount A n (Surface.mix ents m) =
      wsum (chargeAmount A n) (parts ents m)) ∧
    diffuseAmount n el (Surface.mix ents m) = wsum (diffuseAmount n el) (parts ents m) := by
  have key1 : ∀ (A : SurfComp → ℚ), (∀ c a x, a.formula ≠ [] ∧ Sorted a.totals → x ≠ 0 →
      a.formula = c.formula → A (c.add a x) = A c + x * A a) → (∀ a x, A (a.mul x) = x * A a) →
      siteAmount A f (Surface.mix ents m) = wsum (siteAmount A f) (parts ents m) := by
    intro A h1 h2
    unfold Surface.mix
    rw [mixWith_sum Surface.add (siteAmount A f) (fun _ => True) Surface.Valid ?_ ents hV m _
      trivial]
    · simp [siteAmount, sumBy_nil]
    · intro s a x _ ha
      refine ⟨trivial, ?_⟩
      unfold Surface.add
      split
      · rename_i e; rw [e]; ring
      · rename_i hx
        refine addComps_sum (V := fun c => c.formula ≠ [] ∧ Sorted c.totals) ⟨?_, ?_, ?_, ?_, ?_⟩
          a.comps s.comps ha.comps
        · intro c a h; simp only [decide_eq_true_eq] at h; rw [h]
        · intro c a h hv
          simp only [decide_eq_true_eq] at h
          rw [(surf_add c a hx hv.1 h).1]
        · intro c a h hv
          simp only [decide_eq_true_eq] at h
          exact h1 c a x hv hx h
        · intro a; rfl
        · intro a; exact h2 a x
  have key2 : ∀ (A : SurfCharge → ℚ), (∀ c a x, a.name ≠ [] ∧ Sorted a.diffuse → x ≠ 0 →
      A (c.add a x) = A c + x * A a) → (∀ a x, A (a.mul x) = x * A a) →
      chargeAmount A n (Surface.mix ents m) = wsum (chargeAmount A n) (parts ents m) := by
    intro A h1 h2
    unfold Surface.mix
    rw [mixWith_sum Surface.add (chargeAmount A n) (fun _ => True) Surface.Valid ?_ ents hV m _
      trivial]
    · simp [chargeAmount, sumBy_nil]
    · intro s a x _ ha
      refine ⟨trivial, ?_⟩
      unfold Surface.add
      split
      · rename_i e; rw [e]; ring
      · rename_i hx
        refine addComps_sum (V := fun c => c.name ≠ [] ∧ Sorted c.diffuse) ⟨?_, ?_, ?_, ?_, ?_⟩
          a.charges s.charges ha.charges
        · intro c a h; simp only [decide_eq_true_eq] at h; rw [h]
        · intro c a h hv
          rw [(charge_add c a hx hv.1).1]
        · intro c a h hv
          exact h1 c a x hv hx
        · intro a; rfl
        · intro a; exact h2 a x
  refine ⟨key1 _ ?_ ?_, fun A hA => key1 A ?_ ?_, fun A hA => key2 A ?_ ?_, key2 _ ?_ ?_⟩
  · intro c a x hv hx h
    rw [(surf_add c a hx hv.1 h).2.1]
    exact val_addExtensive _ _ _ hv.2 _
  · intro a x; exact val_multiply _ _ _
  · intro c a x hv hx h
    obtain ⟨_, _, e1, e2⟩ := surf_add c a hx hv.1 h
    simp only [siteAmounts, List.mem_cons, List.not_mem_nil, or_false] at hA
    rcases hA with rfl | rfl
    · rw [e2]; ring
    · rw [e1]; ring
  · intro a x
    simp only [siteAmounts, List.mem_cons, List.not_mem_nil, or_false] at hA
    rcases hA with rfl | rfl <;> simp [SurfComp.mul] <;> ring
  · intro c a x hv hx
    obtain ⟨_, _, e1, e2, e3⟩ := charge_add c a hx hv.1
    simp only [chargeAmounts, List.mem_cons, List.not_mem_nil, or_false] at hA
    rcases hA with rfl | rfl | rfl
    · rw [e1]; ring
    · rw [e2]; ring
    · rw [e3]; ring
  · intro a x
    simp only [chargeAmounts, List.mem_cons, List.not_mem_nil, or_false] at hA
    rcases hA with rfl | rfl | rfl <;> simp [SurfCharge.mul] <;> ring
  · intro c a x hv hx
    rw [(charge_add c a hx hv.1).2.1]
    exact val_addExtensive _ _ _ hv.2 _
  · intro a x; exact val_multiply _ _ _

/-- C53, what holds. For every mixture of gas phases of one type: moles of every gas, total
moles and volume are the sums over the parts. For different types it fails
(`gas_mix_violated`). -/
theorem gas_mix_partial (ents : Int → Option GasPhase) (T : GasType)
    (hV : ∀ n e, ents n = some e → e.Valid ∧ e.type = T) (m : Mix) :
    (∀ A ∈ gasAmounts, ∀ n, gasAmount A n (GasPhase.mix ents m) =
      wsum (gasAmount A n) (parts ents m)) ∧
    (GasPhase.mix ents m).totalMoles = wsum GasPhase.totalMoles (parts ents m) ∧
    (GasPhase.mix ents m).volume = wsum GasPhase.volume (parts ents m) := by
  have h := fun A hA => gas_loop A hA T ents hV (m.map Prod.snd).sum m
    { type := .pressure, totalP := 0, volume := 0, vm := 0, totalMoles := 0
      temperature := 29815 / 100, comps := [] } true [] (by simp) (fun _ => ⟨rfl, rfl⟩)
    List.Pairwise.nil (by simp)
  unfold GasPhase.mix
  refine ⟨fun A hA n => ?_, ?_, ?_⟩
  · rw [(h A hA).1 n]; simp [mapAmount, find]
  · rw [(h GasComp.moles (by simp [gasAmounts])).2.1]; simp
  · rw [(h GasComp.moles (by simp [gasAmounts])).2.2]; simp

/-! ## Surface area -/

/-- Area of a charged surface in square metres. -/
def area (c : SurfCharge) : ℚ := c.specificArea * c.grams

/-- C52, two surfaces (a surface is added to one of the same name) with positive areas. The area of the mixture is never
less than the sum, and is the sum exactly when both have the same specific area. -/
theorem area_pair_partial (c a : SurfCharge) (x : ℚ) (hx : 0 < x)
    (hne : c.name ≠ []) (h1 : 0 < c.specificArea) (h2 : 0 < c.grams) (h3 : 0 < a.specificArea)
    (h4 : 0 < a.grams) :
    area c + x * area a ≤ area (c.add a x) ∧
    (area (c.add a x) = area c + x * area a ↔ c.specificArea = a.specificArea) := by
  have hA1 : 0 < c.specificArea * c.grams := mul_pos h1 h2
  have hA2 : 0 < a.specificArea * a.grams * x := mul_pos (mul_pos h3 h4) hx
  have hsum : 0 < c.specificArea * c.grams + a.specificArea * a.grams * x := add_pos hA1 hA2
  have e : area (c.add a x) - (area c + x * area a) =
      c.grams * (a.grams * x) * (c.specificArea - a.specificArea) ^ 2 /
        (c.specificArea * c.grams + a.specificArea * a.grams * x) := by
    unfold SurfCharge.add area
    rw [if_neg (ne_of_gt hx), if_neg (fun h => hne h.1)]
    simp only [weights, if_pos (ne_of_gt hsum)]
    have hs := ne_of_gt hsum
    field_simp
    ring
  have hpos : 0 < c.grams * (a.grams * x) := mul_pos h2 (mul_pos h4 hx)
  constructor
  · have : 0 ≤ area (c.add a x) - (area c + x * area a) := by
      rw [e]
      exact div_nonneg (mul_nonneg (le_of_lt hpos) (sq_nonneg _)) (le_of_lt hsum)
    linarith
  · constructor
    · intro h
      have h0 : area (c.add a x) - (area c + x * area a) = 0 := by rw [h]; ring
      rw [e, div_eq_zero_iff] at h0
      rcases h0 with h0 | h0
      · rcases mul_eq_zero.mp h0 with h0 | h0
        · exact absurd h0 (ne_of_gt hpos)
        · exact sub_eq_zero.mp (pow_eq_zero_iff (two_ne_zero) |>.mp h0)
      · exact absurd h0 (ne_of_gt hsum)
    · intro h
      have h0 : area (c.add a x) - (area c + x * area a) = 0 := by rw [e, h]; simp
      linarith

/-- All surfaces with the name `n` have the specific area `S n`. -/
def SameArea (S : Name → ℚ) (e : Surface) : Prop :=
  ∀ c ∈ e.charges, c.name ≠ [] ∧ Sorted c.diffuse ∧ c.specificArea = S c.name

/-- C52, mixtures of any number of parts: if a surface has the same specific area in all
parts, its area in the mixture is the sum over the parts. -/
theorem area_mix_partial (ents : Int → Option Surface) (hV : ∀ n e, ents n = some e → e.Valid)
    (S : Name → ℚ) (hS : ∀ n e, ents n = some e → ∀ c ∈ e.charges, c.specificArea = S c.name)
    (m : Mix) (n : Name) :
    chargeAmount area n (Surface.mix ents m) = wsum (chargeAmount area n) (parts ents m) := by
  have harea : ∀ e : Surface, SameArea S e →
      chargeAmount area n e = S n * chargeAmount SurfCharge.grams n e := by
    intro e he
    unfold chargeAmount
    unfold SameArea at he
    generalize e.charges = l at he
    induction l with
    | nil => simp [sumBy_nil]
    | cons c l ih =>
      rw [sumBy_cons, sumBy_cons, ih (fun d hd => he d (List.mem_cons_of_mem _ hd))]
      obtain ⟨_, _, h⟩ := he c List.mem_cons_self
      by_cases e : c.name = n
      · simp only [e, decide_true, if_true, area, h]; ring
      · simp [e]
  have hent : ∀ n e, ents n = some e → SameArea S e := fun n e h c hc =>
    ⟨((hV n e h).charges c hc).1, ((hV n e h).charges c hc).2, hS n e h c hc⟩
  have hinv : SameArea S (Surface.mix ents m) := by
    unfold Surface.mix
    refine mixWith_inv Surface.add (SameArea S) (SameArea S) ?_ ents hent m _ (by simp [SameArea])
    intro s a x hs ha
    unfold Surface.add
    split
    · exact hs
    · rename_i hx
      intro c hc
      simp only at hc
      -- the component added to has the same name: carry it along
      have : ∀ (l this : List SurfCharge),
          (∀ c ∈ this, c.name ≠ [] ∧ Sorted c.diffuse ∧ c.specificArea = S c.name) →
          (∀ c ∈ l, c.name ≠ [] ∧ Sorted c.diffuse ∧ c.specificArea = S c.name) →
          ∀ c ∈ addComps (fun c b => b.name = c.name) SurfCharge.add SurfCharge.mul this l x,
            c.name ≠ [] ∧ Sorted c.diffuse ∧ c.specificArea = S c.name := by
        intro l
        unfold addComps
        induction l with
        | nil => intro this h _; exact h
        | cons b l ih =>
          intro this h hl
          rw [List.foldl_cons]
          refine ih _ ?_ (fun d hd => hl d (List.mem_cons_of_mem _ hd))
          obtain ⟨b1, b2, b3⟩ := hl b List.mem_cons_self
          clear ih hl
          induction this with
          | nil =>
            intro c hc
            simp only [addComp, List.mem_singleton] at hc
            rw [hc]
            exact ⟨b1, sorted_multiply _ b2, b3⟩
          | cons d this ih =>
            intro c hc
            obtain ⟨d1, d2, d3⟩ := h d List.mem_cons_self
            simp only [addComp] at hc
            split at hc
            · rename_i hname
              simp only [decide_eq_true_eq] at hname
              rcases List.mem_cons.mp hc with rfl | hc
              · obtain ⟨e1, e2, _⟩ := charge_add d b hx b1
                refine ⟨e1 ▸ d1, by rw [e2]; exact sorted_addExtensive _ _ d2, ?_⟩
                rw [e1]
                unfold SurfCharge.add
                rw [if_neg hx, if_neg (fun h => b1 h.2)]
                simp only [weights, b3, d3, hname]
                split
                · rename_i hs; simp only; rw [← add_mul, ← add_div, div_self hs, one_mul]
                · simp only; ring
              · exact h c (List.mem_cons_of_mem _ hc)
            · rcases List.mem_cons.mp hc with rfl | hc
              · exact ⟨d1, d2, d3⟩
              · exact ih (fun q hq => h q (List.mem_cons_of_mem _ hq)) c hc
      exact this _ _ hs ha c hc
  rw [harea _ hinv, (surface_mix ents hV m [] [] n).2.2.1 SurfCharge.grams (by simp [chargeAmounts])]
  rw [mul_comm, ← wsum_const_mul]
  unfold wsum
  congr 1
  refine List.map_congr_left fun p hp => ?_
  obtain ⟨q, _, hq⟩ := List.mem_filterMap.mp hp
  obtain ⟨e, he, rfl⟩ := Option.map_eq_some_iff.mp hq
  simp only
  rw [harea e (hent _ _ he)]
  ring

/-! ## Concrete cases -/

/-- Two calcite assemblages that dissolve by different reactions. -/
def demoPP (n : Int) : Option PPAssemblage :=
  if n = 1 then some ⟨[("Calcite".toList, ⟨"Calcite".toList, [], 0, 0, 10, 0, 10⟩)], []⟩
  else if n = 2 then
    some ⟨[("Calcite".toList, ⟨"Calcite".toList, "CaCO3".toList, 0, 0, 4, 0, 4⟩)], []⟩
  else none

/-- C49, the code. Equilibrium phases with different reaction formulas: the second part is
dropped, 5 moles instead of 7. -/
theorem pp_mix_violated :
    ppAmount PPComp.moles "Calcite".toList (PPAssemblage.mix demoPP [(1, 1 / 2), (2, 1 / 2)]) = 5 ∧
    wsum (ppAmount PPComp.moles "Calcite".toList) (parts demoPP [(1, 1 / 2), (2, 1 / 2)]) = 7 := by
  decide +kernel

/-- Two gas phases, one at fixed pressure and one at fixed volume, with two moles of CO2 each. -/
def demoGas (n : Int) : Option GasPhase :=
  if n = 1 then some ⟨.pressure, 1, 1, 1, 2, 298, [⟨"CO2(g)".toList, 0, 2, 2, 1, 1, 1⟩]⟩
  else if n = 2 then some ⟨.volume, 1, 1, 1, 2, 298, [⟨"CO2(g)".toList, 0, 2, 2, 1, 1, 1⟩]⟩
  else none

/-- C53, the code. Mixing gas phases of different types gives a gas phase without any gas. -/
theorem gas_mix_violated :
    gasAmount GasComp.moles "CO2(g)".toList (GasPhase.mix demoGas [(1, 1 / 2), (2, 1 / 2)]) = 0 ∧
    wsum (gasAmount GasComp.moles "CO2(g)".toList) (parts demoGas [(1, 1 / 2), (2, 1 / 2)]) = 2 ∧
    (GasPhase.mix demoGas [(1, 1 / 2), (2, 1 / 2)]).totalMoles = 1 := by
  decide +kernel

/-- Two surfaces with specific areas 600 and 100. -/
def demoSurf (n : Int) : Option Surface :=
  if n = 1 then some ⟨[], [⟨"Hfo".toList, 600, 1, 0, 0, []⟩]⟩
  else if n = 2 then some ⟨[], [⟨"Hfo".toList, 100, 1, 0, 0, []⟩]⟩
  else none

/-- C52, the code. Half of each: 3700/7 square metres instead of 350. -/
theorem area_violated :
    chargeAmount area "Hfo".toList (Surface.mix demoSurf [(1, 1 / 2), (2, 1 / 2)]) = 3700 / 7 ∧
    wsum (chargeAmount area "Hfo".toList) (parts demoSurf [(1, 1 / 2), (2, 1 / 2)]) = 350 := by
  decide +kernel

/-- Two exchangers: the first component is shared, the second is not. -/
def demoExch (n : Int) : Option Exchange :=
  if n = 1 then some [⟨"X".toList, [("Ca".toList, 1), ("X".toList, 2)], 0, 0, [], [], 0⟩]
  else if n = 2 then some [⟨"Y".toList, [("Na".toList, 3)], 0, 0, [], [], 0⟩,
    ⟨"X".toList, [("Ca".toList, 3), ("X".toList, 6)], 0, 0, [], [], 0⟩]
  else none

/-- The premise of `exchange_mix` holds for them, and the mixture is as it says. -/
example : (∀ n e, demoExch n = some e → Exchange.Valid e) ∧
    exchAmount "X".toList "Ca".toList (Exchange.mix demoExch [(1, 1 / 4), (2, 3 / 4)]) = 5 / 2 ∧
    exchAmount "Y".toList "Na".toList (Exchange.mix demoExch [(1, 1 / 4), (2, 3 / 4)]) = 9 / 4 := by
  refine ⟨?_, by decide +kernel, by decide +kernel⟩
  intro n e h
  unfold demoExch at h
  split at h
  · cases h
    intro c hc
    simp only [List.mem_singleton] at hc
    subst hc
    exact ⟨by decide, by simp [Sorted]; decide⟩
  · split at h
    · cases h
      intro c hc
      simp only [List.mem_cons, List.not_mem_nil, or_false] at hc
      rcases hc with rfl | rfl
      · exact ⟨by decide, by simp [Sorted]⟩
      · exact ⟨by decide, by simp [Sorted]; decide⟩
    · cases h

/-- Two kinetic reactants and two solid solutions, shared and not shared. -/
example :
    kinAmount KinComp.m "Calcite".toList (Kinetics.mix (fun n => if n = 1 then
      some ⟨[⟨"Calcite".toList, 1, 1, 0⟩], []⟩ else
      some ⟨[⟨"Pyrite".toList, 7, 1, 0⟩, ⟨"Calcite".toList, 3, 1, 0⟩], []⟩) [(1, 1), (2, 2)]) = 7 ∧
    ssAmount SSComp.moles "Ca".toList "Otavite".toList (SSAssemblage.mix (fun n => if n = 1 then
      some [("Ca".toList, ⟨"Ca".toList, [⟨"otavite".toList, 1, 1, 1, 0⟩]⟩)] else
      some [("Ca".toList, ⟨"Ca".toList, [⟨"Otavite".toList, 5, 1, 1, 0⟩]⟩)]) [(1, 1), (2, 2)])
      = 11 := by
  decide +kernel

end Verif.Mixing
