import Verif.Mixing.ReactantProps

/-! # Mixtures of valid reactants are valid -/

namespace Verif.Mixing

open Verif.OMap Verif.NameDouble

theorem exch_comp_valid (c a : ExchComp) (x : ℚ) (hc : c.formula ≠ [] ∧ Sorted c.totals) :
    (c.add a x).formula ≠ [] ∧ Sorted (c.add a x).totals := by
  unfold ExchComp.add
  split
  · exact hc
  · split
    · exact hc
    · simp only [if_neg hc.1]
      have h : c.formula ≠ [] ∧ Sorted (addExtensive c.totals a.totals x) :=
        ⟨hc.1, sorted_addExtensive _ _ hc.2⟩
      split
      · exact h
      · split <;> split
        · exact h
        · split <;> exact h
        · exact h
        · split <;> exact h

theorem exchange_valid (ents : Int → Option Exchange) (hV : ∀ n e, ents n = some e → e.Valid)
    (m : Mix) : (Exchange.mix ents m).Valid := by
  unfold Exchange.mix
  refine mixWith_inv Exchange.add Exchange.Valid Exchange.Valid ?_ ents hV m []
    (fun _ h => by cases h)
  intro s a x hs ha
  unfold Exchange.add
  split
  · exact hs
  · exact addComps_forall (fun c : ExchComp => c.formula ≠ [] ∧ Sorted c.totals)
      (fun c a hc _ => exch_comp_valid c a x hc)
      (fun a h => ⟨h.1, sorted_multiply _ h.2⟩) a s hs ha

theorem pp_valid (ents : Int → Option PPAssemblage) (F : Name → Name)
    (hV : ∀ n e, ents n = some e → PPInv F e) (m : Mix) : PPInv F (PPAssemblage.mix ents m) := by
  unfold PPAssemblage.mix
  refine mixWith_inv PPAssemblage.add (PPInv F) (PPInv F) ?_ ents hV m _
    ⟨⟨List.Pairwise.nil, by simp, by simp, List.Pairwise.nil⟩, by simp⟩
  intro s a x hs ha
  unfold PPAssemblage.add
  split
  · exact hs
  · rename_i hx
    obtain ⟨e1, e2, _⟩ := pp_entries F hx PPComp.moles (by simp [ppAmounts]) a.comps ha.1.sorted
      (fun q hq => ⟨ha.1.keyed q hq, ha.1.named q hq, ha.2 q hq⟩) s.comps hs.1.sorted
      (fun q hq => ⟨hs.1.keyed q hq, hs.1.named q hq, hs.2 q hq⟩)
    exact ⟨⟨e1, fun q hq => (e2 q hq).1, fun q hq => (e2 q hq).2.1,
      sorted_addExtensive _ _ hs.1.elts⟩, fun q hq => (e2 q hq).2.2⟩

theorem kinetics_valid (ents : Int → Option Kinetics) (hV : ∀ n e, ents n = some e → e.Valid)
    (m : Mix) : (Kinetics.mix ents m).Valid := by
  unfold Kinetics.mix
  refine mixWith_inv Kinetics.add Kinetics.Valid Kinetics.Valid ?_ ents hV m _
    (fun _ h => by cases h)
  intro s a x hs ha
  unfold Kinetics.add
  split
  · exact hs
  · refine addComps_forall (fun c : KinComp => c.rateName ≠ []) (fun c a hc _ => ?_)
      (fun a h => h) a.comps s.comps hs ha
    unfold KinComp.add
    split
    · exact hc
    · exact hc

theorem ss_valid (ents : Int → Option SSAssemblage)
    (hV : ∀ n e, ents n = some e → SSAssemblage.Valid e) (m : Mix) :
    (SSAssemblage.mix ents m).Valid := by
  unfold SSAssemblage.mix
  refine mixWith_inv SSAssemblage.add SSAssemblage.Valid SSAssemblage.Valid ?_ ents hV m _
    ⟨List.Pairwise.nil, by simp, by simp⟩
  intro s a x hs ha
  unfold SSAssemblage.add
  split
  · exact hs
  · rename_i hx
    exact (ss_entries hx SSComp.moles (by simp [ssAmounts]) [] a ha s hs).1

theorem surf_comp_valid (c a : SurfComp) (x : ℚ) (hc : c.formula ≠ [] ∧ Sorted c.totals) :
    (c.add a x).formula ≠ [] ∧ Sorted (c.add a x).totals := by
  unfold SurfComp.add
  split
  · exact hc
  · split
    · exact hc
    · simp only [if_neg hc.1]
      have h : c.formula ≠ [] ∧ Sorted (addExtensive c.totals a.totals x) :=
        ⟨hc.1, sorted_addExtensive _ _ hc.2⟩
      split
      · exact h
      · split <;> split
        · exact h
        · split <;> exact h
        · exact h
        · split <;> exact h

theorem charge_valid (c a : SurfCharge) (x : ℚ) (hc : c.name ≠ [] ∧ Sorted c.diffuse) :
    (c.add a x).name ≠ [] ∧ Sorted (c.add a x).diffuse := by
  unfold SurfCharge.add
  split
  · exact hc
  · split
    · exact hc
    · exact ⟨hc.1, sorted_addExtensive _ _ hc.2⟩

theorem surface_valid (ents : Int → Option Surface) (hV : ∀ n e, ents n = some e → e.Valid)
    (m : Mix) : (Surface.mix ents m).Valid := by
  unfold Surface.mix
  refine mixWith_inv Surface.add Surface.Valid Surface.Valid ?_ ents hV m _
    ⟨by simp, by simp⟩
  intro s a x hs ha
  unfold Surface.add
  split
  · exact hs
  · exact ⟨addComps_forall (fun c : SurfComp => c.formula ≠ [] ∧ Sorted c.totals)
        (fun c a hc _ => surf_comp_valid c a x hc) (fun a h => ⟨h.1, sorted_multiply _ h.2⟩)
        a.comps s.comps hs.comps ha.comps,
      addComps_forall (fun c : SurfCharge => c.name ≠ [] ∧ Sorted c.diffuse)
        (fun c a hc _ => charge_valid c a x hc) (fun a h => ⟨h.1, sorted_multiply _ h.2⟩)
        a.charges s.charges hs.charges ha.charges⟩

theorem gas_loop_valid (T : GasType) (ents : Int → Option GasPhase)
    (hV : ∀ n e, ents n = some e → e.Valid ∧ e.type = T) (sum : ℚ) (m : Mix) :
    ∀ (g : GasPhase) (first : Bool) (cm : SMap Name GasComp),
      (first = false → g.type = T) → Sorted cm →
      (∀ q ∈ cm, q.2.phaseName = q.1 ∧ q.1 ≠ []) →
      (first = true → ∃ p ∈ m, ents p.1 ≠ none) →
      (GasPhase.loop ents sum m g first cm).Valid ∧
      (GasPhase.loop ents sum m g first cm).type = T := by
  have hent : ∀ (x : ℚ) (l : List GasComp), (∀ c ∈ l, c.phaseName ≠ []) →
      ∀ cm : SMap Name GasComp, Sorted cm → (∀ q ∈ cm, q.2.phaseName = q.1 ∧ q.1 ≠ []) →
      Sorted (l.foldl (GasPhase.addEntry x) cm) ∧
      ∀ q ∈ l.foldl (GasPhase.addEntry x) cm, q.2.phaseName = q.1 ∧ q.1 ≠ [] := by
    intro x l
    induction l with
    | nil => intro _ cm h1 h2; exact ⟨h1, h2⟩
    | cons a l ih =>
      intro hl cm h1 h2
      rw [List.foldl_cons]
      have hne := hl a List.mem_cons_self
      have : ∃ d, GasPhase.addEntry x cm a = OMap.insert cm a.phaseName d ∧
          d.phaseName = a.phaseName := by
        unfold GasPhase.addEntry
        cases hf : find cm a.phaseName with
        | none => exact ⟨a.mul x, rfl, rfl⟩
        | some d =>
          have d1 : d.phaseName = a.phaseName := (h2 _ (mem_of_find hf)).1
          refine ⟨d.add a x, rfl, ?_⟩
          unfold GasComp.add
          split
          · exact d1
          · exact d1
      obtain ⟨d, e0, e1⟩ := this
      rw [e0]
      exact ih (fun c hc => hl c (List.mem_cons_of_mem _ hc)) _ (sorted_insert h1 _ _)
        (forall_insert (fun q : Name × GasComp => q.2.phaseName = q.1 ∧ q.1 ≠ []) h2 ⟨e1, hne⟩)
  induction m with
  | nil =>
    intro g first cm hT _ hk hex
    cases first with
    | true => obtain ⟨p, hp, _⟩ := hex rfl; cases hp
    | false =>
      refine ⟨?_, hT rfl⟩
      intro c hc
      simp only [GasPhase.loop] at hc
      obtain ⟨q, hq, rfl⟩ := List.mem_map.mp hc
      rw [(hk q hq).1]; exact (hk q hq).2
  | cons p m ih =>
    intro g first cm hT hs hk hex
    simp only [GasPhase.loop]
    cases he : ents p.1 with
    | none =>
      refine ih g first cm hT hs hk (fun h => ?_)
      obtain ⟨q, hq, hq0⟩ := hex h
      rcases List.mem_cons.mp hq with rfl | hq
      · exact absurd he hq0
      · exact ⟨q, hq, hq0⟩
    | some e =>
      obtain ⟨hv, ht⟩ := hV _ _ he
      obtain ⟨c1, c2⟩ := hent p.2 e.comps hv cm hs hk
      simp only
      cases first with
      | true => rw [if_pos rfl]; exact ih _ false _ (fun _ => ht) c1 c2 (by simp)
      | false =>
        have hne : ¬ (g.type ≠ e.type) := by rw [hT rfl, ht]; simp
        rw [if_neg (by simp), if_neg hne]
        exact ih _ false _ (fun _ => hT rfl) c1 c2 (by simp)

theorem gas_valid (T : GasType) (ents : Int → Option GasPhase)
    (hV : ∀ n e, ents n = some e → e.Valid ∧ e.type = T) (m : Mix)
    (hex : ∃ p ∈ m, ents p.1 ≠ none) :
    (GasPhase.mix ents m).Valid ∧ (GasPhase.mix ents m).type = T :=
  gas_loop_valid T ents hV _ m _ true [] (by simp) List.Pairwise.nil (by simp) (fun _ => hex)

end Verif.Mixing
