import Verif.Serial.EntitySpec
import Verif.Raw.Lemmas

/-!
# Packing and unpacking one reactant
-/

namespace Verif.Serial

open Verif.OMap Verif.NameDouble Verif.Raw

/-- As `Lossless`, with a value `norm a` that the reader gets for `a`. -/
def Carried {α : Type} (p : Put α) (g : Get α) (P : α → Prop) (norm : α → α) : Prop :=
  ∀ a, P a → ∀ d : Dict, d.WF →
    (p a d).1.WF ∧ d.Le (p a d).1 ∧ (d.Sendable → (p a d).1.Sendable) ∧
    ∀ d', (p a d).1.Le d' → ∀ s : Stream,
      g d' ⟨(p a d).2.1 ++ s.ints, (p a d).2.2 ++ s.dbls⟩ = .ok (norm a, s)

theorem Lossless.carried {α : Type} {p : Put α} {g : Get α} {P : α → Prop}
    (h : Lossless p g P) : Carried p g P (fun a => a) := h

theorem carried_via {α β : Type} {pb : Put β} {gb : Get β} {Q : β → Prop} {nb : β → β}
    {P : α → Prop} {norm : α → α} (f : α → β) (g : β → α) (hb : Carried pb gb Q nb)
    (hq : ∀ a, P a → Q (f a)) (hfg : ∀ a, P a → g (nb (f a)) = norm a) :
    Carried (putVia f pb) (getVia g gb) P norm := by
  intro a hP d hd
  obtain ⟨b1, b2, b4, b3⟩ := hb (f a) (hq a hP) d hd
  refine ⟨b1, b2, b4, fun d' hle s => ?_⟩
  have := b3 d' hle s
  simp only [getVia, putVia]
  rw [this]
  simp [hfg a hP]

theorem carried_pair {α β : Type} {pa : Put α} {ga : Get α} {pb : Put β} {gb : Get β}
    {P : α → Prop} {Q : β → Prop} {na : α → α} {nb : β → β} (ha : Carried pa ga P na)
    (hb : Carried pb gb Q nb) :
    Carried (putPair pa pb) (getPair ga gb) (fun x => P x.1 ∧ Q x.2)
      (fun x => (na x.1, nb x.2)) := by
  rintro ⟨a, b⟩ ⟨hP, hQ⟩ d hd
  obtain ⟨a1, a2, a4, a3⟩ := ha a hP d hd
  obtain ⟨b1, b2, b4, b3⟩ := hb b hQ _ a1
  refine ⟨b1, a2.trans b2, b4 ∘ a4, fun d' hle s => ?_⟩
  have e1 := a3 d' (b2.trans hle)
    ⟨(pb b (pa a d).1).2.1 ++ s.ints, (pb b (pa a d).1).2.2 ++ s.dbls⟩
  have e2 := b3 d' hle s
  simp only [putPair, getPair, List.append_assoc]
  simp only at e1
  rw [e1]
  simp only
  rw [e2]

theorem carried_all {α : Type} {pa : Put α} {ga : Get α} {P : α → Prop} {na : α → α}
    (ha : Carried pa ga P na) (l : List α) (hl : ∀ a ∈ l, P a) (d : Dict) (hd : d.WF) :
    (putAll pa l d).1.WF ∧ d.Le (putAll pa l d).1 ∧
    (d.Sendable → (putAll pa l d).1.Sendable) ∧
    ∀ d', (putAll pa l d).1.Le d' → ∀ s : Stream,
      getN ga l.length d' ⟨(putAll pa l d).2.1 ++ s.ints, (putAll pa l d).2.2 ++ s.dbls⟩ =
        .ok (l.map na, s) := by
  induction l generalizing d with
  | nil => exact ⟨hd, List.prefix_rfl, id, fun _ _ _ => rfl⟩
  | cons a l ih =>
    obtain ⟨a1, a2, a4, a3⟩ := ha a (hl a List.mem_cons_self) d hd
    obtain ⟨b1, b2, b4, b3⟩ := ih (fun x hx => hl x (List.mem_cons_of_mem _ hx)) _ a1
    refine ⟨b1, a2.trans b2, b4 ∘ a4, fun d' hle s => ?_⟩
    have e1 := a3 d' (b2.trans hle)
      ⟨(putAll pa l (pa a d).1).2.1 ++ s.ints, (putAll pa l (pa a d).1).2.2 ++ s.dbls⟩
    have e2 := b3 d' hle s
    simp only [putAll, List.length_cons, getN, List.append_assoc]
    simp only at e1
    rw [e1]
    simp only
    rw [e2]
    rfl

theorem carried_vec {α : Type} {pa : Put α} {ga : Get α} {P : α → Prop} {na : α → α}
    (ha : Carried pa ga P na) :
    Carried (putVec pa) (getVec ga) (fun l => ∀ a ∈ l, P a) (List.map na) := by
  intro l hl d hd
  obtain ⟨b1, b2, b4, b3⟩ := carried_all ha l hl d hd
  refine ⟨b1, b2, b4, fun d' hle s => ?_⟩
  have := b3 d' hle s
  simp only [putVec, getVec, getInt, List.cons_append]
  simpa using this

theorem mapOf_sorted {κ ν : Type} [LinearOrder κ] (m : SMap κ ν) (h : Sorted m) : mapOf m = m := by
  have := foldl_insert_sorted (fun x : ν => x) m h
  simpa [mapOf] using this

theorem mapBy_sorted {κ ν : Type} [LinearOrder κ] (key : ν → κ) (m : SMap κ ν) (h : Sorted m)
    (hk : ∀ p ∈ m, p.1 = key p.2) : mapBy key (m.map Prod.snd) = m := by
  have h2 : (m.map Prod.snd).foldl (fun m x => OMap.insert m (key x) x) []
      = m.foldl (fun m p => OMap.insert m p.1 p.2) [] := by
    rw [List.foldl_map]
    refine List.foldl_ext _ _ _ fun a p hp => ?_
    rw [hk p hp]
  have := mapOf_sorted m h
  unfold mapOf at this
  unfold mapBy
  rw [h2, this]

theorem lossless_intMap : Lossless putIntMap getIntMap Sorted := by
  have h := lossless_via (P := fun m : SMap Int ℚ => Sorted m) (fun m => m) mapOf
    (lossless_vec (lossless_pair lossless_int lossless_dbl))
    (fun _ _ _ _ => ⟨trivial, trivial⟩) (fun m hm => mapOf_sorted m hm)
  exact h

theorem lossless_dbls : Lossless (putVec putDbl) (getVec getDbl) (fun _ => True) :=
  lossless_mono (lossless_vec lossless_dbl) (fun _ _ _ _ => trivial)

theorem lossless_exchComp : Lossless putExchComp getExchComp (fun c => GoodWord c.formula ∧
    GoodWord c.phaseName ∧ GoodWord c.rateName ∧ SendableND c.totals) :=
  lossless_via _ _ (lossless_pair lossless_word (lossless_pair lossless_ND
    (lossless_pair lossless_dbl (lossless_pair lossless_dbl (lossless_pair lossless_word
    (lossless_pair lossless_dbl (lossless_pair lossless_word lossless_dbl)))))))
    (fun _ ⟨h1, h2, h3, h4⟩ => ⟨h1, h4, trivial, trivial, h2, trivial, h3, trivial⟩)
    (fun _ _ => rfl)

theorem carried_exchange :
    Carried putExchange getExchange Exchange.Sendable Exchange.received :=
  carried_via _ _ (lossless_pair lossless_int (lossless_pair (lossless_vec lossless_exchComp)
    (lossless_pair lossless_bool (lossless_pair lossless_bool (lossless_pair lossless_bool
    (lossless_pair lossless_int lossless_ND)))))).carried
    (fun _ ⟨h1, h2⟩ => ⟨trivial, h1, trivial, trivial, trivial, trivial, h2⟩)
    (fun _ _ => rfl)

theorem lossless_gasComp : Lossless putGasComp getGasComp (fun c => GoodWord c.name) :=
  lossless_via _ _ (lossless_pair lossless_word (lossless_pair lossless_dbl
    (lossless_pair lossless_dbl (lossless_pair lossless_dbl (lossless_pair lossless_dbl
    (lossless_pair lossless_dbl lossless_dbl))))))
    (fun _ h => ⟨h, trivial, trivial, trivial, trivial, trivial, trivial⟩)
    (fun _ _ => rfl)

theorem carried_gas : Carried putGasPhase getGasPhase GasPhase.Sendable GasPhase.received :=
  carried_via _ _ (lossless_pair lossless_int (lossless_pair lossless_int
    (lossless_pair lossless_dbl (lossless_pair lossless_dbl
    (lossless_pair (lossless_vec lossless_gasComp) (lossless_pair lossless_bool
    (lossless_pair lossless_bool (lossless_pair lossless_int (lossless_pair lossless_dbl
    (lossless_pair lossless_dbl (lossless_pair lossless_dbl (lossless_pair lossless_bool
    lossless_ND)))))))))))).carried
    (fun _ ⟨_, h1, h2⟩ => ⟨trivial, trivial, trivial, trivial, h1, trivial, trivial, trivial,
      trivial, trivial, trivial, trivial, h2⟩)
    (fun x ⟨h, _, _⟩ => by
      obtain ⟨hd, ty, tp, v, co, nd, se, ns, te, tm, vm, pi, tot⟩ := x
      rcases h with h | h <;> (dsimp only at h; subst h; rfl))

theorem lossless_kinComp : Lossless putKinComp getKinComp (fun c => GoodWord c.name ∧
    SendableND c.namecoef ∧ SendableND c.reaction) :=
  lossless_via _ _ (lossless_pair lossless_word (lossless_pair lossless_ND
    (lossless_pair lossless_dbl (lossless_pair lossless_dbl (lossless_pair lossless_dbl
    (lossless_pair lossless_dbls (lossless_pair lossless_dbl (lossless_pair lossless_dbl
    lossless_ND))))))))
    (fun _ ⟨h1, h2, h3⟩ => ⟨h1, h2, trivial, trivial, trivial, trivial, trivial, trivial, h3⟩)
    (fun _ _ => rfl)

theorem carried_kinetics :
    Carried putKinetics getKinetics Kinetics.Sendable Kinetics.received :=
  carried_via _ _ (lossless_pair lossless_int (lossless_pair (lossless_vec lossless_kinComp)
    (lossless_pair lossless_dbls (lossless_pair lossless_int (lossless_pair lossless_bool
    (lossless_pair lossless_dbl (lossless_pair lossless_int (lossless_pair lossless_int
    (lossless_pair lossless_bool (lossless_pair lossless_int (lossless_pair lossless_int
    lossless_ND))))))))))).carried
    (fun _ ⟨h1, h2⟩ => ⟨trivial, h1, trivial, trivial, trivial, trivial, trivial, trivial, trivial,
      trivial, trivial, h2⟩)
    (fun _ _ => rfl)

theorem lossless_ppComp : Lossless putPPComp getPPComp (fun c => GoodWord c.name ∧
    GoodWord c.addFormula ∧ SendableND c.totals) :=
  lossless_via _ _ (lossless_pair lossless_word (lossless_pair lossless_word
    (lossless_pair lossless_dbl (lossless_pair lossless_dbl (lossless_pair lossless_dbl
    (lossless_pair lossless_dbl (lossless_pair lossless_dbl (lossless_pair lossless_bool
    (lossless_pair lossless_bool (lossless_pair lossless_bool lossless_ND))))))))))
    (fun _ ⟨h1, h2, h3⟩ => ⟨h1, h2, trivial, trivial, trivial, trivial, trivial, trivial, trivial,
      trivial, h3⟩)
    (fun _ _ => rfl)

theorem carried_pp : Carried putPP getPP PPAssemblage.Sendable PPAssemblage.received :=
  carried_via _ _ (lossless_pair lossless_int (lossless_pair lossless_bool
    (lossless_pair (lossless_vec lossless_ppComp) (lossless_pair lossless_ND lossless_ND)))).carried
    (fun _ ⟨_, h2, h3, h4⟩ => ⟨trivial, trivial, fun c hc => by
      obtain ⟨p, hp, rfl⟩ := List.mem_map.mp hc
      exact (h2 p hp).2, h3, h4⟩)
    (fun x ⟨h1, h2, _, _⟩ => by
      have := mapBy_sorted PPComp.name x.comps h1 (fun p hp => (h2 p hp).1)
      dsimp only
      rw [this]; rfl)

theorem lossless_ssComp : Lossless putSSComp getSSComp (fun c => GoodWord c.name) :=
  lossless_via _ _ (lossless_pair lossless_word (lossless_pair lossless_dbl
    (lossless_pair lossless_dbl (lossless_pair lossless_dbl (lossless_pair lossless_dbl
    (lossless_pair lossless_dbl (lossless_pair lossless_dbl (lossless_pair lossless_dbl
    (lossless_pair lossless_dbl (lossless_pair lossless_dbl lossless_dbl))))))))))
    (fun _ h => ⟨h, trivial, trivial, trivial, trivial, trivial, trivial, trivial, trivial,
      trivial, trivial⟩)
    (fun _ _ => rfl)

theorem lossless_four : Lossless putFour getFour (fun _ => True) := by
  rintro ⟨a, b, c, e⟩ - d hd
  obtain ⟨h1, h2, h3, h4⟩ := lossless_dbls [a, b, c, e] trivial d hd
  refine ⟨h1, h2, h3, fun d' hle s => ?_⟩
  have := h4 d' hle s
  simp only [putFour, putVia, getFour]
  rw [this]

theorem lossless_ss : Lossless putSS getSS (fun c => GoodWord c.name ∧
    (∀ k ∈ c.comps, GoodWord k.name) ∧ SendableND c.totals) :=
  lossless_via _ _ (lossless_pair lossless_word (lossless_pair lossless_dbl
    (lossless_pair lossless_dbl (lossless_pair (lossless_vec lossless_ssComp)
    (lossless_pair lossless_dbl (lossless_pair lossless_dbl (lossless_pair lossless_bool
    (lossless_pair lossless_bool (lossless_pair lossless_dbl (lossless_pair lossless_dbl
    (lossless_pair lossless_dbl (lossless_pair lossless_int (lossless_pair lossless_four
    (lossless_pair lossless_dbl (lossless_pair lossless_dbl (lossless_pair lossless_bool
    lossless_ND))))))))))))))))
    (fun _ ⟨h1, h2, h3⟩ => ⟨h1, trivial, trivial, h2, trivial, trivial, trivial, trivial, trivial,
      trivial, trivial, trivial, trivial, trivial, trivial, trivial, h3⟩)
    (fun _ _ => rfl)

theorem carried_ssAssemblage :
    Carried putSSAssemblage getSSAssemblage SSAssemblage.Sendable SSAssemblage.received :=
  carried_via _ _ (lossless_pair lossless_int (lossless_pair (lossless_vec lossless_ss)
    (lossless_pair lossless_bool lossless_ND))).carried
    (fun _ ⟨_, h2, h3⟩ => ⟨trivial, fun c hc => by
      obtain ⟨p, hp, rfl⟩ := List.mem_map.mp hc
      exact (h2 p hp).2, trivial, h3⟩)
    (fun x ⟨h1, h2, _⟩ => by
      have := mapBy_sorted SS.name x.sss h1 (fun p hp => (h2 p hp).1)
      dsimp only
      rw [this]; rfl)

theorem lossless_surfComp : Lossless putSurfComp getSurfComp (fun c => GoodWord c.formula ∧
    GoodWord c.chargeName ∧ GoodWord c.phaseName ∧ GoodWord c.rateName ∧
    GoodWord c.masterElement ∧ SendableND c.totals) :=
  lossless_via _ _ (lossless_pair lossless_word (lossless_pair lossless_dbl
    (lossless_pair lossless_dbl (lossless_pair lossless_ND (lossless_pair lossless_dbl
    (lossless_pair lossless_word (lossless_pair lossless_dbl (lossless_pair lossless_word
    (lossless_pair lossless_dbl (lossless_pair lossless_word (lossless_pair lossless_dbl
    lossless_word)))))))))))
    (fun _ ⟨h1, h2, h3, h4, h5, h6⟩ => ⟨h1, trivial, trivial, h6, trivial, h2, trivial, h3, trivial,
      h4, trivial, h5⟩)
    (fun _ _ => rfl)

theorem lossless_dl : Lossless (putVec (putPair putDbl (putPair putDbl (putPair putDbl putDbl))))
    (getVec (getPair getDbl (getPair getDbl (getPair getDbl getDbl)))) (fun _ => True) :=
  lossless_mono (lossless_vec (lossless_pair lossless_dbl (lossless_pair lossless_dbl
    (lossless_pair lossless_dbl lossless_dbl))))
    (fun _ _ _ _ => ⟨trivial, trivial, trivial, trivial⟩)

theorem carried_surfCharge : Carried putSurfCharge getSurfCharge (fun c => GoodWord c.name ∧
    SendableND c.dlTotals ∧ Sorted c.gMap ∧ Sorted c.dlSpecies) (fun c => { c with zMap := [] }) :=
  carried_via _ _ (lossless_pair lossless_word (lossless_pair lossless_dbl
    (lossless_pair lossless_dbl (lossless_pair lossless_dbl (lossless_pair lossless_dbl
    (lossless_pair lossless_dbl (lossless_pair lossless_dbl (lossless_pair lossless_dbl
    (lossless_pair lossless_ND (lossless_pair lossless_dbl (lossless_pair lossless_dbl
    (lossless_pair lossless_dbl (lossless_pair lossless_dbl (lossless_pair lossless_dbl
    (lossless_pair lossless_dbl (lossless_pair lossless_dl lossless_intMap)))))))))))))))).carried
    (fun _ ⟨h1, h2, _, h4⟩ => ⟨h1, trivial, trivial, trivial, trivial, trivial, trivial, trivial,
      h2, trivial, trivial, trivial, trivial, trivial, trivial, trivial, h4⟩)
    (fun c ⟨_, _, h3, _⟩ => by
      have := mapOf_sorted c.gMap h3
      dsimp only
      rw [this])

theorem carried_surface : Carried putSurface getSurface Surface.Sendable Surface.received :=
  carried_via _ _ (carried_pair lossless_int.carried
    (carried_pair (lossless_vec lossless_surfComp).carried
    (carried_pair (carried_vec carried_surfCharge)
    (lossless_pair lossless_bool (lossless_pair lossless_bool (lossless_pair lossless_int
    (lossless_pair lossless_int (lossless_pair lossless_int (lossless_pair lossless_bool
    (lossless_pair lossless_dbl (lossless_pair lossless_dbl (lossless_pair lossless_dbl
    (lossless_pair lossless_dbl (lossless_pair lossless_bool (lossless_pair lossless_bool
    (lossless_pair lossless_ND (lossless_pair lossless_bool
    lossless_int)))))))))))))).carried)))
    (fun _ ⟨h1, h2, h3⟩ => ⟨trivial, h1, h2, trivial, trivial, trivial, trivial, trivial, trivial,
      trivial, trivial, trivial, trivial, trivial, trivial, h3, trivial, trivial⟩)
    (fun _ _ => rfl)

theorem lossless_isotope : Lossless putIsotope getIsotope
    (fun i => GoodWord i.1 ∧ GoodWord i.2.elt) :=
  lossless_via _ _ (lossless_pair lossless_word (lossless_pair lossless_dbl
    (lossless_pair lossless_word (lossless_pair lossless_word (lossless_pair lossless_dbl
    (lossless_pair lossless_dbl (lossless_pair lossless_dbl (lossless_pair lossless_bool
    (lossless_pair lossless_dbl lossless_dbl)))))))))
    (fun _ ⟨h1, h2⟩ => ⟨h1, trivial, h2, h1, trivial, trivial, trivial, trivial, trivial, trivial⟩)
    (fun _ _ => rfl)

theorem carried_solution :
    Carried putSolution getSolution SolState.Sendable SolState.received :=
  carried_via _ _ (lossless_pair lossless_int (lossless_pair lossless_bool
    (lossless_pair lossless_dbl (lossless_pair lossless_dbl (lossless_pair lossless_dbl
    (lossless_pair lossless_dbl (lossless_pair lossless_dbl (lossless_pair lossless_dbl
    (lossless_pair lossless_dbl (lossless_pair lossless_dbl (lossless_pair lossless_dbl
    (lossless_pair lossless_dbl (lossless_pair lossless_dbl (lossless_pair lossless_dbl
    (lossless_pair lossless_dbl (lossless_pair lossless_dbl (lossless_pair lossless_dbl
    (lossless_pair lossless_ND (lossless_pair lossless_ND (lossless_pair lossless_ND
    (lossless_pair (lossless_vec lossless_isotope) (lossless_pair lossless_intMap
    (lossless_pair lossless_intMap lossless_intMap))))))))))))))))))))))).carried
    (fun _ ⟨h1, h2, h3, _, h5, h6, h7, h8⟩ => ⟨trivial, trivial, trivial, trivial, trivial,
      trivial, trivial, trivial, trivial, trivial, trivial, trivial, trivial, trivial, trivial,
      trivial, trivial, h1, h2, h3, h5, h6, h7, h8⟩)
    (fun x ⟨_, _, _, h4, _, _, _, _⟩ => by
      have := mapOf_sorted x.isotopes h4
      dsimp only
      rw [this]; rfl)

theorem carried_steps : Carried putSteps getSteps (fun _ => True) StepList.received :=
  carried_via _ _ (lossless_pair lossless_int (lossless_pair lossless_dbls
    (lossless_pair lossless_int lossless_bool))).carried
    (fun _ _ => ⟨trivial, trivial, trivial, trivial⟩)
    (fun _ _ => rfl)

end Verif.Serial
