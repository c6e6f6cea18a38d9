import Verif.Raw.BlocksLemmas
import Verif.Raw.Kinetics

/-!
# `KINETICS_RAW`: lemmas
-/

namespace Verif.Raw

open Verif.OMap Verif.NameDouble

/-- A component as it is read back. -/
def KinComp.restored (rnd : ℚ → ℚ) (c : KinComp) : KinComp :=
  ⟨c.name, rnd c.tol, rnd c.m, rnd c.m0, rounded rnd c.namecoef, c.dParams.map rnd, rnd c.moles,
    rnd c.initialMoles, []⟩

def kinCoef : Lens KinRead ND where
  get c := c.1.namecoef
  set t c := ({ c.1 with namecoef := t }, c.2)
  get_set _ _ := rfl
  set_set _ _ _ := rfl
  set_get _ := rfl

def kinParams : Lens KinRead (List ℚ) where
  get c := c.2
  set t c := (c.1, t)
  get_set _ _ := rfl
  set_set _ _ _ := rfl
  set_get _ := rfl

theorem goes_kinComp (rnd : ℚ → ℚ) (c : KinComp) (hc : ListOk kinCompOpts c.namecoef) :
    ∃ v sv, Goes kinCompStep (dumpKinComp rnd c) ⟨(newKinComp c.name, []), none, [], 0⟩
      ⟨v, sv, [], 0⟩ ∧ KinRead.result v = c.restored rnd := by
  obtain ⟨nm, tol, m, m0, nc, dp, mo, im, re⟩ := c
  dsimp only at hc
  unfold dumpKinComp
  have g1 : Goes kinCompStep [optLine "tol" [.num (rnd tol)], optLine "m" [.num (rnd m)],
      optLine "m0" [.num (rnd m0)], optLine "namecoef" []] ⟨(newKinComp nm, []), none, [], 0⟩
      ⟨(⟨nm, rnd tol, rnd m, rnd m0, [], [], 0, 0, []⟩, []), some 5, [], 0⟩ :=
    goes_cons (flat_opt 1 _ _ (by decide) (by decide))
      (goes_cons (flat_opt 2 _ _ (by decide) (by decide))
      (goes_cons (flat_opt 3 _ _ (by decide) (by decide))
      (goes_one (flat_opt 5 _ _ (by decide) (by decide)))))
  have g2 : Goes kinCompStep (dumpND rnd nc)
      ⟨(⟨nm, rnd tol, rnd m, rnd m0, [], [], 0, 0, []⟩, []), some 5, [], 0⟩
      ⟨(⟨nm, rnd tol, rnd m, rnd m0, rounded rnd nc, [], 0, 0, []⟩, []), some 5, [], 0⟩ :=
    goes_list kinCoef 5 rnd (fun _ _ _ _ _ => rfl) nc hc _ rfl rfl
  have g3 : Goes kinCompStep [optLine "d_params" []]
      ⟨(⟨nm, rnd tol, rnd m, rnd m0, rounded rnd nc, [], 0, 0, []⟩, []), some 5, [], 0⟩
      ⟨(⟨nm, rnd tol, rnd m, rnd m0, rounded rnd nc, [], 0, 0, []⟩, []), some 6, [], 0⟩ :=
    goes_one (flat_opt 6 _ _ (by decide) (by decide))
  have g4 : Goes kinCompStep (numLines rnd dp)
      ⟨(⟨nm, rnd tol, rnd m, rnd m0, rounded rnd nc, [], 0, 0, []⟩, []), some 6, [], 0⟩
      ⟨(⟨nm, rnd tol, rnd m, rnd m0, rounded rnd nc, [], 0, 0, []⟩, dp.map rnd), some 6, [], 0⟩ := by
    refine goes_nums_flat kinParams 6 rnd ?_ dp
      ⟨(⟨nm, rnd tol, rnd m, rnd m0, rounded rnd nc, [], 0, 0, []⟩, []), some 6, [], 0⟩ rfl
    intro q qs v r e
    simp only [kinCompAct, takeNums_map]
    rfl
  have g5 : Goes kinCompStep [optLine "moles" [.num (rnd mo)],
      optLine "initial_moles" [.num (rnd im)]]
      ⟨(⟨nm, rnd tol, rnd m, rnd m0, rounded rnd nc, [], 0, 0, []⟩, dp.map rnd), some 6, [], 0⟩
      ⟨(⟨nm, rnd tol, rnd m, rnd m0, rounded rnd nc, [], rnd mo, rnd im, []⟩, dp.map rnd), some 6,
        [], 0⟩ :=
    goes_cons (flat_opt 4 _ _ (by decide) (by decide))
      (goes_one (flat_opt 7 _ _ (by decide) (by decide)))
  refine ⟨_, _, goes_append (goes_append (goes_append (goes_append g1 g2) g3) g4) g5, ?_⟩
  unfold KinRead.result
  split
  · rename_i h
    have : dp.map rnd = [] := h
    simp only [KinComp.restored, this]
  · rfl

/-- The outer reader of `kineticsStep`. -/
abbrev kinOuter : Line → RS KineticsRead → Res (RS KineticsRead × Option KinIn) :=
  outerStep kineticsOpts kineticsAct kineticsEnter (fun s => .stop (s.error, none))

def kinW : List String := ["component", "equal_increments"]

abbrev KinReady (p : RS KineticsRead × Option KinIn) (s : RS KineticsRead) : Prop :=
  Ready kinOuter (tagStep kinCompStep) kineticsClose kinW p s

def KinQ (s : RS KineticsRead) (cs : List KinComp) : Prop :=
  (∀ c ∈ cs, ListOk kinCompOpts c.namecoef) ∧
  cs.Pairwise (fun c d => lower c.name ≠ lower d.name) ∧
  ∀ d ∈ s.val.1.comps, ∀ c ∈ cs, lower d.name ≠ lower c.name

def kinAdd (rnd : ℚ → ℚ) (s : RS KineticsRead) (c : KinComp) : RS KineticsRead :=
  { s with val := ({ s.val.1 with comps := s.val.1.comps ++ [c.restored rnd] }, s.val.2) }

theorem goes_kinComps (rnd : ℚ → ℚ) (cs : List KinComp) (p : RS KineticsRead × Option KinIn)
    (s : RS KineticsRead) (hp : KinReady p s) (hq : KinQ s cs) :
    ∃ p', Goes kineticsStep
        (cs.flatMap (fun c => optLine "component" [.word c.name] :: dumpKinComp rnd c)) p p' ∧
      KinReady p' (cs.foldl (kinAdd rnd) s) := by
  refine goes_comps (cw := "component") (W := kinW) (by decide) (fun c => [.word c.name])
    (dumpKinComp rnd) (kinAdd rnd) KinQ ?_ cs p s hp hq
  intro s c cs ⟨h1, h2, h3⟩
  have hf : findKin s.val.1.comps c.name = none := by
    unfold findKin
    rw [List.find?_eq_none]
    intro d hd h
    exact h3 d hd c (List.mem_cons_self ..) (eq_of_beq h)
  obtain ⟨v, sv, g, hv⟩ := goes_kinComp rnd c (h1 c (List.mem_cons_self ..))
  refine ⟨((c.name, false), ⟨(newKinComp c.name, []), none, [], 0⟩),
    ((c.name, false), ⟨v, sv, [], 0⟩), ?_, goes_tag g _, ?_, ?_⟩
  · refine outer_enter 4 _ _ (by decide) (by decide) ?_
    simp only [kineticsEnter, if_true, hf]
  · refine ready_some (fun w hw rest => tag_stop (flat_stop (W := kinW) (by decide) w hw rest _) _)
      ?_
    simp only [kineticsClose, kinAdd, hv]
    rfl
  · refine ⟨fun d hd => h1 d (List.mem_cons_of_mem _ hd), (List.pairwise_cons.mp h2).2, ?_⟩
    intro d hd c' hc'
    rcases List.mem_append.mp hd with hd | hd
    · exact h3 d hd c' (List.mem_cons_of_mem _ hc')
    · obtain rfl := List.mem_singleton.mp hd
      exact (List.pairwise_cons.mp h2).1 c' hc'

theorem foldl_kinAdd (rnd : ℚ → ℚ) (cs : List KinComp) (s : RS KineticsRead) :
    cs.foldl (kinAdd rnd) s
      = { s with val := ({ s.val.1 with
          comps := s.val.1.comps ++ cs.map (KinComp.restored rnd) }, s.val.2) } := by
  induction cs generalizing s with
  | nil => simp
  | cons c cs ih => rw [List.foldl_cons, ih]; simp [kinAdd]

def kinTotals : Lens KineticsRead ND where
  get c := c.1.totals
  set t c := ({ c.1 with totals := t }, c.2)
  get_set _ _ := rfl
  set_set _ _ _ := rfl
  set_get _ := rfl

def kinSteps : Lens KineticsRead (List ℚ) where
  get c := c.2
  set t c := (c.1, t)
  get_set _ _ := rfl
  set_set _ _ _ := rfl
  set_get _ := rfl

/-- The kinetic reactants read from the dumped text. -/
def Kinetics.restored (rnd : ℚ → ℚ) (h : Head) (x : Kinetics) : Kinetics :=
  ⟨h, rnd x.stepDivide, x.rk, x.badStepMax, x.useCvode, x.cvodeSteps, x.cvodeOrder,
    x.comps.map (KinComp.restored rnd), x.equal, x.count, x.steps.map rnd, rounded rnd x.totals⟩

theorem kinEqual_boolTok (b : Bool) (s : RS KineticsRead) :
    kinEqual [boolTok b] s = { s with val := ({ s.val.1 with equal := b }, s.val.2) } := by
  cases b <;> rfl

theorem readKinetics_dump (rnd : ℚ → ℚ) (x : Kinetics) (ls : List Line)
    (h0 : ∀ c ∈ x.comps, ListOk kinCompOpts c.namecoef)
    (h1 : x.comps.Pairwise (fun c d => lower c.name ≠ lower d.name))
    (h2 : ListOk kineticsOpts x.totals) (he : BlockEnd ls) :
    readKinetics (dumpKinetics rnd x ++ ls)
      = (x.restored rnd ⟨x.head.nUser, x.head.nUser, x.head.desc⟩, 0, ls) := by
  obtain ⟨⟨nu, nue, de⟩, sd, rk, bs, uc, cv, co, cs, eq, n, st, tot⟩ := x
  dsimp only at h0 h1 h2
  have g1 : Goes kineticsStep [optLine "step_divide" [.num (rnd sd)],
      optLine "rk" [.num rk], optLine "bad_step_max" [.num bs],
      optLine "use_cvode" [boolTok uc], optLine "cvode_steps" [.num cv],
      optLine "cvode_order" [.num co]]
      (⟨(newKinetics ⟨nu, nu, de⟩, []), none, [0, 1, 2, 3, 7, 8], 0⟩, none)
      (⟨(⟨⟨nu, nu, de⟩, rnd sd, rk, bs, uc, cv, co, [], false, 0, [], []⟩, []), none, [], 0⟩,
        none) := by
    refine goes_cons (nest_opt 0 _ _ (by decide) (by decide) rfl)
      (goes_cons (nest_opt 1 _ _ (by decide) (by decide) rfl)
      (goes_cons (nest_opt 2 _ _ (by decide) (by decide) rfl)
      (goes_cons (nest_opt 3 _ _ (by decide) (by decide) rfl)
      (goes_cons (nest_opt 7 _ _ (by decide) (by decide) rfl)
      (goes_eq (goes_one (nest_opt 8 _ _ (by decide) (by decide) rfl)) ?_)))))
    simp only [kineticsAct, readInt_int, readBool_boolTok]
    rfl
  obtain ⟨p', g2, r⟩ := goes_kinComps rnd cs _ _
    (ready_none kinW ⟨(⟨⟨nu, nu, de⟩, rnd sd, rk, bs, uc, cv, co, [], false, 0, [], []⟩, []),
      none, [], 0⟩) ⟨h0, h1, by intro d hd; cases hd⟩
  rw [foldl_kinAdd] at r
  have g3 : Goes kineticsStep [optLine "equal_increments" [boolTok eq],
      optLine "count" [.num n], optLine "steps" []] p'
      (⟨(⟨⟨nu, nu, de⟩, rnd sd, rk, bs, uc, cv, co, cs.map (KinComp.restored rnd), eq, n, [], []⟩,
        []), some 6, [], 0⟩, none) := by
    refine goes_ready (outer := kinOuter) r (by decide)
      (outer_opt 11 _ _ (by decide) (by decide) rfl)
      (goes_cons (nest_opt 10 _ _ (by decide) (by decide) rfl)
      (goes_eq (goes_one (nest_opt 6 _ _ (by decide) (by decide) rfl)) ?_))
    simp only [kineticsAct, kinEqual_boolTok, readInt_int]
    rfl
  have g4 : Goes kineticsStep (numLines rnd st)
      (⟨(⟨⟨nu, nu, de⟩, rnd sd, rk, bs, uc, cv, co, cs.map (KinComp.restored rnd), eq, n, [], []⟩,
        []), some 6, [], 0⟩, none)
      (⟨(⟨⟨nu, nu, de⟩, rnd sd, rk, bs, uc, cv, co, cs.map (KinComp.restored rnd), eq, n, [], []⟩,
        st.map rnd), some 6, [], 0⟩, none) := by
    refine goes_nums_outer kinSteps 6 rnd ?_ st
      ⟨(⟨⟨nu, nu, de⟩, rnd sd, rk, bs, uc, cv, co, cs.map (KinComp.restored rnd), eq, n, [], []⟩,
        []), some 6, [], 0⟩ rfl
    intro q qs v r e
    simp only [kineticsAct, takeNums_map]
    rfl
  have g5 : Goes kineticsStep [optLine "totals" []]
      (⟨(⟨⟨nu, nu, de⟩, rnd sd, rk, bs, uc, cv, co, cs.map (KinComp.restored rnd), eq, n, [], []⟩,
        st.map rnd), some 6, [], 0⟩, none)
      (⟨(⟨⟨nu, nu, de⟩, rnd sd, rk, bs, uc, cv, co, cs.map (KinComp.restored rnd), eq, n, [], []⟩,
        st.map rnd), some 5, [], 0⟩, none) :=
    goes_one (nest_opt 5 _ _ (by decide) (by decide) rfl)
  have g6 : Goes kineticsStep (dumpND rnd tot)
      (⟨(⟨⟨nu, nu, de⟩, rnd sd, rk, bs, uc, cv, co, cs.map (KinComp.restored rnd), eq, n, [], []⟩,
        st.map rnd), some 5, [], 0⟩, none)
      (⟨(⟨⟨nu, nu, de⟩, rnd sd, rk, bs, uc, cv, co, cs.map (KinComp.restored rnd), eq, n, [],
        rounded rnd tot⟩, st.map rnd), some 5, [], 0⟩, none) :=
    goes_list_outer kinTotals 5 rnd (fun _ _ _ _ _ => rfl) tot h2
      ⟨(⟨⟨nu, nu, de⟩, rnd sd, rk, bs, uc, cv, co, cs.map (KinComp.restored rnd), eq, n, [], []⟩,
        st.map rnd), some 5, [], 0⟩ rfl rfl
  have g := goes_append g1 (goes_append g2 (goes_append g3 (goes_append g4 (goes_append g5 g6))))
  simp only [List.cons_append, List.nil_append] at g
  unfold dumpKinetics
  simp only [List.cons_append, List.nil_append, List.append_assoc]
  unfold readKinetics
  dsimp only
  rw [readHead_headLine]
  have := feed_goes (ms := ls) g
  simp only [List.cons_append, List.nil_append, List.append_assoc] at this
  rw [this]
  unfold kineticsStep
  rw [feed_nest_end _ he]
  simp only [nestEnd, RS.check, Kinetics.restored]
  unfold KineticsRead.result
  split
  · rename_i h
    have : st.map rnd = [] := h
    simp only [this]
    rfl
  · rfl

end Verif.Raw
