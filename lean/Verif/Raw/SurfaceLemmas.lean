import Verif.Raw.Lemmas
import Verif.Raw.BlocksLemmas
import Verif.Raw.Surface

/-!
# `SURFACE_RAW`: lemmas
-/

namespace Verif.Raw

open Verif.OMap Verif.NameDouble

theorem goes_inl {κ μ : Type} {f : Line → κ → Res κ} {g : Line → μ → Res μ} {a : List Line}
    {r r' : κ} (h : Goes f a r r') : Goes (sumStep f g) a (.inl r) (.inl r') := by
  induction a generalizing r with
  | nil => obtain rfl : r = r' := h; rfl
  | cons l a ih =>
    obtain ⟨t, h1, h2⟩ := h
    exact ⟨.inl t, by simp only [sumStep, h1], ih h2⟩

theorem goes_inr {κ μ : Type} {f : Line → κ → Res κ} {g : Line → μ → Res μ} {a : List Line}
    {r r' : μ} (h : Goes g a r r') : Goes (sumStep f g) a (.inr r) (.inr r') := by
  induction a generalizing r with
  | nil => obtain rfl : r = r' := h; rfl
  | cons l a ih =>
    obtain ⟨t, h1, h2⟩ := h
    exact ⟨.inr t, by simp only [sumStep, h1], ih h2⟩

theorem inl_stop {κ μ : Type} {f : Line → κ → Res κ} {g : Line → μ → Res μ} {l : Line} {r : κ}
    (h : f l r = .stop r) : sumStep f g l (.inl r) = .stop (.inl r) := by
  simp only [sumStep, h]

theorem inr_stop {κ μ : Type} {f : Line → κ → Res κ} {g : Line → μ → Res μ} {l : Line} {r : μ}
    (h : g l r = .stop r) : sumStep f g l (.inr r) = .stop (.inr r) := by
  simp only [sumStep, h]

/-- A component as it is read back. -/
def SurfComp.restored (rnd : ℚ → ℚ) (c : SurfComp) : SurfComp :=
  ⟨c.formula, rnd c.formulaZ, rnd c.moles, rnd c.la, rnd c.chargeBalance, c.phaseName, c.rateName,
    rnd c.phaseProportion, rnd c.dw, c.chargeName, c.masterElement, rounded rnd c.totals⟩

def surfCompTotals : Lens SurfComp ND where
  get c := c.totals
  set t c := { c with totals := t }
  get_set _ _ := rfl
  set_set _ _ _ := rfl
  set_get _ := rfl

/-- What a component has to satisfy. -/
structure SurfComp.Ok (c : SurfComp) : Prop where
  charge : c.chargeName ≠ []
  master : c.masterElement ≠ []
  totals : ListOk surfCompOpts c.totals

theorem wordTok_ne {n : Name} (h : n ≠ []) : wordTok n = [.word n] := if_neg h

/-- `goes_list` for an option that counts as a required one. -/
theorem goes_list_req {α : Type} {opts : List Name} {act : Nat → List Tok → RS α → RS α}
    {unknown : RS α → Res (RS α)} (L : Lens α ND) (n : Nat) (r : List Nat) (rnd : ℚ → ℚ)
    (hact : ∀ w q v e, act n [.word w, .num q] ⟨v, some n, r, e⟩
      = ⟨L.set (OMap.insert (L.get v) w q) v, some n, r, e⟩)
    (nd : ND) (hp : ListOk opts nd) (s : RS α) (hs : s.save = some n) (hr : s.req = r)
    (h0 : L.get s.val = []) :
    Goes (flatStep opts act unknown) (dumpND rnd nd) s
      { s with val := L.set (rounded rnd nd) s.val } := by
  have key : ∀ (m : ND) (s : RS α), (∀ p ∈ m, Plain opts p.1) → s.save = some n → s.req = r →
      Goes (flatStep opts act unknown) (dumpND rnd m) s
        { s with val :=
          m.foldl (fun v p => L.set (OMap.insert (L.get v) p.1 (rnd p.2)) v) s.val } := by
    intro m
    induction m with
    | nil => intro s _ _ _; exact goes_nil _ _
    | cons p m ih =>
      intro s hp hs hr
      obtain ⟨v, sv, r', e⟩ := s
      obtain rfl : sv = some n := hs
      obtain rfl : r' = r := hr
      have g := ih ⟨L.set (OMap.insert (L.get v) p.1 (rnd p.2)) v, some n, r', e⟩
        (fun q hq => hp q (List.mem_cons_of_mem _ hq)) rfl rfl
      refine goes_cons ?_ g
      unfold flatStep
      rw [getOption_plain _ (hp p (List.mem_cons_self ..))]
      simp only [hact]
  refine goes_eq (key nd s hp.2 hs hr) ?_
  rw [fold_list L rnd nd hp.1 _ h0]

theorem goes_surfComp (rnd : ℚ → ℚ) (c : SurfComp) (hc : c.Ok) :
    Goes surfCompStep (dumpSurfComp rnd c) ⟨newSurfComp c.formula, none, surfCompReq, 0⟩
      ⟨c.restored rnd, some 8, [], 0⟩ := by
  obtain ⟨h1, h2, h3⟩ := hc
  obtain ⟨fo, fz, mo, la, cb, pn, rn, pp, dw, cn, me, tot⟩ := c
  dsimp only at h1 h2 h3
  have g1 : Goes surfCompStep
      [optLine "formula_z" [.num (rnd fz)], optLine "moles" [.num (rnd mo)],
       optLine "la" [.num (rnd la)], optLine "charge_balance" [.num (rnd cb)]]
      ⟨newSurfComp fo, none, surfCompReq, 0⟩
      ⟨⟨fo, rnd fz, rnd mo, rnd la, rnd cb, [], [], 0, 0, [], [], []⟩, none, [12, 11, 13, 8], 0⟩ := by
    unfold surfCompStep
    exact goes_cons (flat_opt 9 _ _ (by decide) (by decide))
      (goes_cons (flat_opt 1 _ _ (by decide) (by decide))
      (goes_cons (flat_opt 2 _ _ (by decide) (by decide))
      (goes_eq (goes_one (flat_opt 4 _ _ (by decide) (by decide))) rfl)))
  have g2 : Goes surfCompStep (nameLine "phase_name" pn)
      ⟨⟨fo, rnd fz, rnd mo, rnd la, rnd cb, [], [], 0, 0, [], [], []⟩, none, [12, 11, 13, 8], 0⟩
      ⟨⟨fo, rnd fz, rnd mo, rnd la, rnd cb, pn, [], 0, 0, [], [], []⟩, none, [12, 11, 13, 8], 0⟩ :=
    goes_name (flat_opt 5 _ _ (by decide) (by decide)) (by intro h; rw [h])
  have g3 : Goes surfCompStep (nameLine "rate_name" rn)
      ⟨⟨fo, rnd fz, rnd mo, rnd la, rnd cb, pn, [], 0, 0, [], [], []⟩, none, [12, 11, 13, 8], 0⟩
      ⟨⟨fo, rnd fz, rnd mo, rnd la, rnd cb, pn, rn, 0, 0, [], [], []⟩, none, [12, 11, 13, 8], 0⟩ :=
    goes_name (flat_opt 6 _ _ (by decide) (by decide)) (by intro h; rw [h])
  have g4 : Goes surfCompStep
      [optLine "phase_proportion" [.num (rnd pp)], optLine "Dw" [.num (rnd dw)],
       optLine "charge_name" [.word cn], optLine "master_element" [.word me], optLine "totals" []]
      ⟨⟨fo, rnd fz, rnd mo, rnd la, rnd cb, pn, rn, 0, 0, [], [], []⟩, none, [12, 11, 13, 8], 0⟩
      ⟨⟨fo, rnd fz, rnd mo, rnd la, rnd cb, pn, rn, rnd pp, rnd dw, cn, me, []⟩, some 8, [], 0⟩ := by
    unfold surfCompStep
    exact goes_cons (flat_opt 7 _ _ (by decide) (by decide))
      (goes_cons (flat_opt 11 _ _ (by decide) (by decide))
      (goes_cons (flat_opt 12 _ _ (by decide) (by decide))
      (goes_cons (flat_opt 13 _ _ (by decide) (by decide))
      (goes_eq (goes_one (flat_opt 8 _ _ (by decide) (by decide))) rfl))))
  have g5 : Goes surfCompStep (dumpND rnd tot)
      ⟨⟨fo, rnd fz, rnd mo, rnd la, rnd cb, pn, rn, rnd pp, rnd dw, cn, me, []⟩, some 8, [], 0⟩
      ⟨⟨fo, rnd fz, rnd mo, rnd la, rnd cb, pn, rn, rnd pp, rnd dw, cn, me, rounded rnd tot⟩, some 8,
        [], 0⟩ :=
    goes_list_req surfCompTotals 8 [] rnd (fun _ _ _ _ => rfl) tot h3 _ rfl rfl rfl
  unfold dumpSurfComp
  dsimp only
  rw [wordTok_ne h1, wordTok_ne h2]
  exact goes_append (goes_append (goes_append (goes_append g1 g2) g3) g4) g5

/-- The entries of `g_map` as they are read back. -/
def gRounded (rnd : ℚ → ℚ) (g : SMap ℚ (ℚ × ℚ × ℚ)) : SMap ℚ (ℚ × ℚ × ℚ) :=
  g.map (fun p => (rnd p.1, (rnd p.2.1, rnd p.2.2.1, rnd p.2.2.2)))

/-- A charge as it is read back. -/
def SurfCharge.restored (rnd : ℚ → ℚ) (c : SurfCharge) : SurfCharge :=
  ⟨c.name, rnd c.specificArea, rnd c.grams, rnd c.chargeBalance, rnd c.massWater, rnd c.fFree,
    rnd c.viscosity, rnd c.laPsi, rnd c.capacitance0, rnd c.capacitance1, rounded rnd c.dlTotals,
    rounded rnd c.dlSpecies, rnd c.sigma0, rnd c.sigma1, rnd c.sigma2, rnd c.sigmaddl,
    gRounded rnd c.gMap, []⟩

/-- What a charge has to satisfy. -/
structure SurfCharge.Ok (rnd : ℚ → ℚ) (c : SurfCharge) : Prop where
  totals : ListOk surfChargeOpts c.dlTotals
  species : Sorted c.dlSpecies
  charges : c.gMap.Pairwise (fun p q => rnd p.1 < rnd q.1)

def chargeTotals : Lens ChargeRead ND where
  get c := c.1.dlTotals
  set t c := ({ c.1 with dlTotals := t }, c.2)
  get_set _ _ := rfl
  set_set _ _ _ := rfl
  set_get _ := rfl

def chargeSpecies : Lens ChargeRead (SMap Int ℚ) where
  get c := c.1.dlSpecies
  set t c := ({ c.1 with dlSpecies := t }, c.2)
  get_set _ _ := rfl
  set_set _ _ _ := rfl
  set_get _ := rfl

theorem goes_chargeSpecies (rnd : ℚ → ℚ) (m : SMap Int ℚ) (hm : Sorted m) (v : ChargeRead)
    (sv : Option Nat) (r : List Nat) (e : Nat) (h0 : v.1.dlSpecies = []) :
    ∃ sv', Goes surfChargeStep
      (if m = [] then [] else optLine "diffuse_layer_species" [] :: dumpIntMap rnd m)
      ⟨v, sv, r, e⟩ ⟨({ v.1 with dlSpecies := rounded rnd m }, v.2), sv', r, e⟩ := by
  unfold surfChargeStep
  split
  · rename_i h
    refine ⟨sv, ?_⟩
    subst h
    obtain ⟨c, b⟩ := v
    obtain ⟨a1, a2, a3, a4, a5, a6, a7, a8, a9, a10, a11, a12, a13⟩ := c
    obtain rfl : a12 = [] := h0
    rfl
  · refine ⟨some 16, goes_cons (s' := ⟨v, some 16, r, e⟩) ?_
      (goes_intMap chargeSpecies 16 rnd ?_ m hm ⟨v, some 16, r, e⟩ rfl h0)⟩
    · exact flat_opt 16 _ _ (by decide) (by decide)
    · intro i q v r e
      simp only [surfChargeAct, readIntPair, trunc_int]
      rfl

theorem goes_g (rnd : ℚ → ℚ) (g : SMap ℚ (ℚ × ℚ × ℚ)) (c : SurfCharge) (b : Bool)
    (hb : b = true → c.gMap = []) (sv : Option Nat) (r : List Nat) (e : Nat) :
    ∃ b', Goes surfChargeStep
      (g.map (fun p => optLine "g_map"
        [.num (rnd p.1), .num (rnd p.2.1), .num (rnd p.2.2.1), .num (rnd p.2.2.2)]))
      ⟨(c, b), sv, r, e⟩
      ⟨({ c with gMap := (gRounded rnd g).foldl (fun m p => OMap.insert m p.1 p.2) c.gMap }, b'),
        sv, r, e⟩ := by
  induction g generalizing c b with
  | nil => exact ⟨b, rfl⟩
  | cons p g ih =>
    obtain ⟨b', g'⟩ := ih
      { c with gMap := OMap.insert c.gMap (rnd p.1) (rnd p.2.1, rnd p.2.2.1, rnd p.2.2.2) } false
      (by intro h; cases h)
    refine ⟨b', goes_cons ?_ g'⟩
    refine (flat_opt 15 _ _ (by decide) (by decide)).trans ?_
    simp only [surfChargeAct, readG, takeNums]
    cases b with
    | false => rfl
    | true => simp only [hb rfl, if_true]

theorem fold_g (rnd : ℚ → ℚ) (g : SMap ℚ (ℚ × ℚ × ℚ))
    (h : g.Pairwise (fun p q => rnd p.1 < rnd q.1)) :
    (gRounded rnd g).foldl (fun m p => OMap.insert m p.1 p.2) [] = gRounded rnd g := by
  have hs : Sorted (gRounded rnd g) := by
    unfold Sorted gRounded; rw [List.pairwise_map]; exact h
  have := foldl_insert_sorted (f := id) _ hs
  simpa using this

theorem goes_surfCharge (rnd : ℚ → ℚ) (c : SurfCharge) (hc : c.Ok rnd) :
    ∃ sv b, Goes surfChargeStep (dumpSurfCharge rnd c)
      ⟨(newSurfCharge c.name, true), none, surfChargeReq, 0⟩
      ⟨(c.restored rnd, b), sv, [], 0⟩ := by
  obtain ⟨h1, h2, h3⟩ := hc
  obtain ⟨nm, sa, gr, cb, mw, ff, vi, lp, c0, c1, dt, ds, s0, s1, s2, sd, g, z⟩ := c
  dsimp only at h1 h2 h3
  have g1 : Goes surfChargeStep
      [optLine "specific_area" [.num (rnd sa)], optLine "grams" [.num (rnd gr)],
       optLine "charge_balance" [.num (rnd cb)], optLine "mass_water" [.num (rnd mw)],
       optLine "f_free" [.num (rnd ff)], optLine "ddl_viscosity" [.num (rnd vi)],
       optLine "la_psi" [.num (rnd lp)], optLine "capacitance0" [.num (rnd c0)],
       optLine "capacitance1" [.num (rnd c1)], optLine "diffuse_layer_totals" []]
      ⟨(newSurfCharge nm, true), none, surfChargeReq, 0⟩
      ⟨(⟨nm, rnd sa, rnd gr, rnd cb, rnd mw, rnd ff, rnd vi, rnd lp, rnd c0, rnd c1, [], [], 0, 0,
        0, 0, [], []⟩, true), some 6, [], 0⟩ := by
    unfold surfChargeStep
    exact goes_cons (flat_opt 1 _ _ (by decide) (by decide))
      (goes_cons (flat_opt 2 _ _ (by decide) (by decide))
      (goes_cons (flat_opt 3 _ _ (by decide) (by decide))
      (goes_cons (flat_opt 4 _ _ (by decide) (by decide))
      (goes_cons (flat_opt 17 _ _ (by decide) (by decide))
      (goes_cons (flat_opt 18 _ _ (by decide) (by decide))
      (goes_cons (flat_opt 5 _ _ (by decide) (by decide))
      (goes_cons (flat_opt 9 _ _ (by decide) (by decide))
      (goes_cons (flat_opt 10 _ _ (by decide) (by decide))
      (goes_eq (goes_one (flat_opt 6 _ _ (by decide) (by decide))) rfl)))))))))
  have g2 : Goes surfChargeStep (dumpND rnd dt)
      ⟨(⟨nm, rnd sa, rnd gr, rnd cb, rnd mw, rnd ff, rnd vi, rnd lp, rnd c0, rnd c1, [], [], 0, 0,
        0, 0, [], []⟩, true), some 6, [], 0⟩
      ⟨(⟨nm, rnd sa, rnd gr, rnd cb, rnd mw, rnd ff, rnd vi, rnd lp, rnd c0, rnd c1, rounded rnd dt,
        [], 0, 0, 0, 0, [], []⟩, true), some 6, [], 0⟩ :=
    goes_list chargeTotals 6 rnd (fun _ _ _ _ _ => rfl) dt h1 _ rfl rfl
  obtain ⟨sv, g3⟩ := goes_chargeSpecies rnd ds h2
    (⟨nm, rnd sa, rnd gr, rnd cb, rnd mw, rnd ff, rnd vi, rnd lp, rnd c0, rnd c1, rounded rnd dt,
        [], 0, 0, 0, 0, [], []⟩, true) (some 6) [] 0 rfl
  have g4 : Goes surfChargeStep
      [optLine "sigma0" [.num (rnd s0)], optLine "sigma1" [.num (rnd s1)],
       optLine "sigma2" [.num (rnd s2)], optLine "sigmaddl" [.num (rnd sd)]]
      ⟨(⟨nm, rnd sa, rnd gr, rnd cb, rnd mw, rnd ff, rnd vi, rnd lp, rnd c0, rnd c1, rounded rnd dt,
        rounded rnd ds, 0, 0, 0, 0, [], []⟩, true), sv, [], 0⟩
      ⟨(⟨nm, rnd sa, rnd gr, rnd cb, rnd mw, rnd ff, rnd vi, rnd lp, rnd c0, rnd c1, rounded rnd dt,
        rounded rnd ds, rnd s0, rnd s1, rnd s2, rnd sd, [], []⟩, true), sv, [], 0⟩ := by
    unfold surfChargeStep
    exact goes_cons (flat_opt 11 _ _ (by decide) (by decide))
      (goes_cons (flat_opt 12 _ _ (by decide) (by decide))
      (goes_cons (flat_opt 13 _ _ (by decide) (by decide))
      (goes_eq (goes_one (flat_opt 14 _ _ (by decide) (by decide))) rfl)))
  obtain ⟨b, g5⟩ := goes_g rnd g
    ⟨nm, rnd sa, rnd gr, rnd cb, rnd mw, rnd ff, rnd vi, rnd lp, rnd c0, rnd c1, rounded rnd dt,
        rounded rnd ds, rnd s0, rnd s1, rnd s2, rnd sd, [], []⟩ true (fun _ => rfl) sv [] 0
  dsimp only at g5
  rw [fold_g rnd g h3] at g5
  exact ⟨sv, b, goes_append (goes_append (goes_append (goes_append g1 g2) g3) g4) g5⟩

/-- The outer reader of `surfaceStep`. -/
abbrev surfOuter : Line → RS Surface → Res (RS Surface × Option SurfIn) :=
  outerStep surfaceOpts surfaceAct surfaceEnter (fun s => .stop (s.error, none))

def surfW : List String := ["component", "charge_component", "new_def"]

abbrev SurfReady (p : RS Surface × Option SurfIn) (s : RS Surface) : Prop :=
  Ready surfOuter (sumStep (tagStep surfCompStep) (tagStep surfChargeStep)) surfaceClose surfW p s

def SurfCompQ (s : RS Surface) (cs : List SurfComp) : Prop :=
  (∀ c ∈ cs, c.Ok) ∧ cs.Pairwise (fun c d => lower c.formula ≠ lower d.formula) ∧
  ∀ d ∈ s.val.comps, ∀ c ∈ cs, lower d.formula ≠ lower c.formula

def surfCompAdd (rnd : ℚ → ℚ) (s : RS Surface) (c : SurfComp) : RS Surface :=
  { s with val := { s.val with comps := s.val.comps ++ [c.restored rnd] } }

theorem goes_surfComps (rnd : ℚ → ℚ) (cs : List SurfComp) (p : RS Surface × Option SurfIn)
    (s : RS Surface) (hp : SurfReady p s) (hq : SurfCompQ s cs) :
    ∃ p', Goes surfaceStep
        (cs.flatMap (fun c => optLine "component" [.word c.formula] :: dumpSurfComp rnd c)) p p' ∧
      SurfReady p' (cs.foldl (surfCompAdd rnd) s) := by
  refine goes_comps (cw := "component") (W := surfW) (by decide) (fun c => [.word c.formula])
    (dumpSurfComp rnd) (surfCompAdd rnd) SurfCompQ ?_ cs p s hp hq
  intro s c cs ⟨h1, h2, h3⟩
  have hf : findSurfComp s.val.comps c.formula = none := by
    unfold findSurfComp
    rw [List.find?_eq_none]
    intro d hd h
    exact h3 d hd c (List.mem_cons_self ..) (eq_of_beq h).symm
  refine ⟨.inl ((c.formula, false), ⟨newSurfComp c.formula, none, surfCompReq, 0⟩),
    .inl ((c.formula, false), ⟨c.restored rnd, some 8, [], 0⟩), ?_,
    goes_inl (goes_tag (goes_surfComp rnd c (h1 c (List.mem_cons_self ..))) _), ?_, ?_⟩
  · refine outer_enter 5 _ _ (by decide) (by decide) ?_
    simp only [surfaceEnter, if_true, hf]
  · exact ready_some (fun w hw rest => inl_stop (tag_stop
      (flat_stop (W := surfW) (by decide) w hw rest _) _)) rfl
  · refine ⟨fun d hd => h1 d (List.mem_cons_of_mem _ hd), (List.pairwise_cons.mp h2).2, ?_⟩
    intro d hd c' hc'
    rcases List.mem_append.mp hd with hd | hd
    · exact h3 d hd c' (List.mem_cons_of_mem _ hc')
    · obtain rfl := List.mem_singleton.mp hd
      exact (List.pairwise_cons.mp h2).1 c' hc'

theorem foldl_surfCompAdd (rnd : ℚ → ℚ) (cs : List SurfComp) (s : RS Surface) :
    cs.foldl (surfCompAdd rnd) s
      = { s with val := { s.val with comps := s.val.comps ++ cs.map (SurfComp.restored rnd) } } := by
  induction cs generalizing s with
  | nil => simp
  | cons c cs ih => rw [List.foldl_cons, ih]; simp [surfCompAdd]

def SurfChargeQ (rnd : ℚ → ℚ) (s : RS Surface) (cs : List SurfCharge) : Prop :=
  (∀ c ∈ cs, c.Ok rnd) ∧ cs.Pairwise (fun c d => lower c.name ≠ lower d.name) ∧
  ∀ d ∈ s.val.charges, ∀ c ∈ cs, lower d.name ≠ lower c.name

def surfChargeAdd (rnd : ℚ → ℚ) (s : RS Surface) (c : SurfCharge) : RS Surface :=
  { s with val := { s.val with charges := s.val.charges ++ [c.restored rnd] } }

theorem goes_surfCharges (rnd : ℚ → ℚ) (cs : List SurfCharge) (p : RS Surface × Option SurfIn)
    (s : RS Surface) (hp : SurfReady p s) (hq : SurfChargeQ rnd s cs) :
    ∃ p', Goes surfaceStep
        (cs.flatMap (fun c => optLine "charge_component" [.word c.name] :: dumpSurfCharge rnd c))
          p p' ∧
      SurfReady p' (cs.foldl (surfChargeAdd rnd) s) := by
  refine goes_comps (cw := "charge_component") (W := surfW) (by decide) (fun c => [.word c.name])
    (dumpSurfCharge rnd) (surfChargeAdd rnd) (SurfChargeQ rnd) ?_ cs p s hp hq
  intro s c cs ⟨h1, h2, h3⟩
  have hf : findSurfCharge s.val.charges c.name = none := by
    unfold findSurfCharge
    rw [List.find?_eq_none]
    intro d hd h
    exact h3 d hd c (List.mem_cons_self ..) (eq_of_beq h).symm
  obtain ⟨sv, b, g⟩ := goes_surfCharge rnd c (h1 c (List.mem_cons_self ..))
  refine ⟨.inr ((c.name, false), ⟨(newSurfCharge c.name, true), none, surfChargeReq, 0⟩),
    .inr ((c.name, false), ⟨(c.restored rnd, b), sv, [], 0⟩), ?_, goes_inr (goes_tag g _), ?_, ?_⟩
  · refine outer_enter 6 _ _ (by decide) (by decide) ?_
    simp only [surfaceEnter, if_true, hf, show ¬ (6 = 5) from by decide, if_false]
  · exact ready_some (fun w hw rest => inr_stop (tag_stop
      (flat_stop (W := surfW) (by decide) w hw rest _) _)) rfl
  · refine ⟨fun d hd => h1 d (List.mem_cons_of_mem _ hd), (List.pairwise_cons.mp h2).2, ?_⟩
    intro d hd c' hc'
    rcases List.mem_append.mp hd with hd | hd
    · exact h3 d hd c' (List.mem_cons_of_mem _ hc')
    · obtain rfl := List.mem_singleton.mp hd
      exact (List.pairwise_cons.mp h2).1 c' hc'

theorem foldl_surfChargeAdd (rnd : ℚ → ℚ) (cs : List SurfCharge) (s : RS Surface) :
    cs.foldl (surfChargeAdd rnd) s
      = { s with val := { s.val with
            charges := s.val.charges ++ cs.map (SurfCharge.restored rnd) } } := by
  induction cs generalizing s with
  | nil => simp
  | cons c cs ih => rw [List.foldl_cons, ih]; simp [surfChargeAdd]

/-- The surface before the components are sorted. -/
def Surface.collected (rnd : ℚ → ℚ) (h : Head) (x : Surface) : Surface :=
  ⟨h, x.type, x.dlType, x.onlyCounterIons, x.correctD, rnd x.thickness, rnd x.debyeLengths,
    rnd x.viscosity, rnd x.limit, x.comps.map (SurfComp.restored rnd),
    x.charges.map (SurfCharge.restored rnd), x.newDef, x.tidied, x.sitesUnits, x.solEq, x.nSolution,
    x.transport, [], false⟩

/-- The lines of a surface between the header and the entries of `-totals`. -/
def surfBody (rnd : ℚ → ℚ) (x : Surface) : List Line :=
  [optLine "type" [.num x.type], optLine "dl_type" [.num x.dlType],
   optLine "only_counter_ions" [boolTok x.onlyCounterIons], optLine "correct_D" [boolTok x.correctD],
   optLine "thickness" [.num (rnd x.thickness)],
   optLine "debye_lengths" [.num (rnd x.debyeLengths)],
   optLine "DDL_viscosity" [.num (rnd x.viscosity)], optLine "DDL_limit" [.num (rnd x.limit)]]
  ++ (x.comps.flatMap (fun c => optLine "component" [.word c.formula] :: dumpSurfComp rnd c)
  ++ (x.charges.flatMap (fun c => optLine "charge_component" [.word c.name] :: dumpSurfCharge rnd c)
  ++ [optLine "new_def" [boolTok x.newDef], optLine "tidied" [boolTok x.tidied],
      optLine "sites_units" [.num x.sitesUnits], optLine "solution_equilibria" [boolTok x.solEq],
      optLine "n_solution" [.num x.nSolution], optLine "transport" [boolTok x.transport],
      optLine "totals" []]))

theorem dumpSurface_eq (rnd : ℚ → ℚ) (x : Surface) :
    dumpSurface rnd x = headLine "SURFACE_RAW" x.head :: (surfBody rnd x ++ dumpND rnd x.totals) := by
  simp [dumpSurface, surfBody]

theorem goes_surfBody (rnd : ℚ → ℚ) (x : Surface) (h : Head) (h1 : ∀ c ∈ x.comps, c.Ok)
    (h2 : x.comps.Pairwise (fun c d => lower c.formula ≠ lower d.formula))
    (h3 : ∀ c ∈ x.charges, c.Ok rnd)
    (h4 : x.charges.Pairwise (fun c d => lower c.name ≠ lower d.name)) :
    Goes surfaceStep (surfBody rnd x)
      (⟨newSurface h, none, [2, 4, 7, 8, 9, 10, 11, 12, 13], 0⟩, none)
      (⟨x.collected rnd h, none, [], 0⟩, none) := by
  obtain ⟨hd, ty, dl, oc, cd, th, de, vi, li, cs, qs, nd, td, su, se, ns, tr, tot, cv⟩ := x
  dsimp only at h1 h2 h3 h4
  have g1 : Goes surfaceStep
      [optLine "type" [.num ty], optLine "dl_type" [.num dl],
       optLine "only_counter_ions" [boolTok oc], optLine "correct_D" [boolTok cd],
       optLine "thickness" [.num (rnd th)], optLine "debye_lengths" [.num (rnd de)],
       optLine "DDL_viscosity" [.num (rnd vi)], optLine "DDL_limit" [.num (rnd li)]]
      (⟨newSurface h, none, [2, 4, 7, 8, 9, 10, 11, 12, 13], 0⟩, none)
      (⟨⟨h, ty, dl, oc, cd, rnd th, rnd de, rnd vi, rnd li, [], [], false, true, 0, false, -999,
        false, [], false⟩, none, [9, 13], 0⟩, none) := by
    refine goes_cons (nest_opt 7 _ _ (by decide) (by decide) rfl)
      (goes_cons (nest_opt 8 _ _ (by decide) (by decide) rfl)
      (goes_cons (nest_opt 2 _ _ (by decide) (by decide) rfl)
      (goes_cons (nest_opt 19 _ _ (by decide) (by decide) rfl)
      (goes_cons (nest_opt 4 _ _ (by decide) (by decide) rfl)
      (goes_cons (nest_opt 10 _ _ (by decide) (by decide) rfl)
      (goes_cons (nest_opt 11 _ _ (by decide) (by decide) rfl)
      (goes_eq (goes_one (nest_opt 12 _ _ (by decide) (by decide) rfl)) ?_)))))))
    simp only [surfaceAct, readInt_int, readBool_boolTok]
    rfl
  obtain ⟨p1, g2, r1⟩ := goes_surfComps rnd cs _ _
    (ready_none surfW ⟨⟨h, ty, dl, oc, cd, rnd th, rnd de, rnd vi, rnd li, [], [], false, true, 0,
      false, -999, false, [], false⟩, none, [9, 13], 0⟩) ⟨h1, h2, (by intro d hd; cases hd)⟩
  rw [foldl_surfCompAdd] at r1
  obtain ⟨p2, g3, r2⟩ := goes_surfCharges rnd qs _ _ r1 ⟨h3, h4, (by intro d hd; cases hd)⟩
  rw [foldl_surfChargeAdd] at r2
  refine goes_append g1 (goes_append g2 (goes_append g3 ?_))
  refine goes_ready (outer := surfOuter) r2 (by decide)
    (outer_opt 14 _ _ (by decide) (by decide) rfl)
    (goes_cons (nest_opt 18 _ _ (by decide) (by decide) rfl)
    (goes_cons (nest_opt 9 _ _ (by decide) (by decide) rfl)
    (goes_cons (nest_opt 15 _ _ (by decide) (by decide) rfl)
    (goes_cons (nest_opt 16 _ _ (by decide) (by decide) rfl)
    (goes_cons (nest_opt 13 _ _ (by decide) (by decide) rfl)
    (goes_eq (goes_one (nest_opt 17 _ _ (by decide) (by decide) rfl)) ?_))))))
  simp only [surfaceAct, readInt_int, readBool_boolTok]
  rfl

/-- The surface read from the dumped text. -/
def Surface.restored (rnd : ℚ → ℚ) (h : Head) (x : Surface) : Surface :=
  { x.collected rnd h with
    comps := sortBy SurfComp.formula (x.comps.map (SurfComp.restored rnd))
    charges := sortBy SurfCharge.name (x.charges.map (SurfCharge.restored rnd)) }

/-- What the reader makes of a dumped surface. -/
theorem readSurface_dump (rnd : ℚ → ℚ) (x : Surface) (ls : List Line) (h1 : ∀ c ∈ x.comps, c.Ok)
    (h2 : x.comps.Pairwise (fun c d => lower c.formula ≠ lower d.formula))
    (h3 : ∀ c ∈ x.charges, c.Ok rnd)
    (h4 : x.charges.Pairwise (fun c d => lower c.name ≠ lower d.name))
    (h5 : x.totals = []) (he : BlockEnd ls) :
    readSurface (dumpSurface rnd x ++ ls)
      = (x.restored rnd ⟨x.head.nUser, x.head.nUser, x.head.desc⟩, 0, ls) := by
  rw [dumpSurface_eq, h5, dumpND_nil, List.append_nil, List.cons_append]
  unfold readSurface
  dsimp only
  rw [readHead_headLine, feed_goes (goes_surfBody rnd x _ h1 h2 h3 h4)]
  unfold surfaceStep
  rw [feed_nest_end _ he]
  rfl

theorem sortBy_perm {ν : Type} (key : ν → Name) (cs : List ν) (h : (cs.map key).Nodup) :
    (sortBy key cs).Perm cs ∧ (sortBy key cs).Pairwise (fun a b => key a < key b) := by
  obtain ⟨h1, h2⟩ := foldl_insert_perm key cs [] h (by simp [keys]) (by simp [Sorted])
  have h3 : (sortBy key cs).Perm cs := by
    have := h1.map Prod.snd
    simpa [sortBy, List.map_map, Function.comp_def] using this
  refine ⟨h3, ?_⟩
  have hk : ∀ p ∈ cs.foldl (fun m c => OMap.insert m (key c) c) [], p.1 = key p.2 := by
    intro p hp
    have := h1.mem_iff.mp hp
    simp only [List.nil_append, List.mem_map] at this
    obtain ⟨c, _, rfl⟩ := this
    rfl
  unfold sortBy
  rw [List.pairwise_map]
  refine (List.Pairwise.and_mem.mp h2).imp ?_
  intro a b ⟨ha, hb, hab⟩
  rw [← hk a ha, ← hk b hb]; exact hab

theorem sortBy_sorted {ν : Type} (key : ν → Name) (cs : List ν)
    (h : cs.Pairwise (fun a b => key a < key b)) : sortBy key cs = cs := by
  have hs : Sorted (cs.map (fun c => (key c, c))) := by
    unfold Sorted; rw [List.pairwise_map]; exact h
  have := foldl_insert_sorted (f := id) _ hs
  rw [List.foldl_map] at this
  unfold sortBy
  simp only [id] at this
  rw [this]
  simp [List.map_map, Function.comp_def]

end Verif.Raw
