import Verif.Raw.Lemmas
import Verif.Raw.Gas

/-!
# `GAS_PHASE_RAW`: lemmas
-/

namespace Verif.Raw

open Verif.OMap Verif.NameDouble

/-- A component as it is read back: the doubles rounded, the partial pressure zero. -/
def GasComp.restored (rnd : ℚ → ℚ) (c : GasComp) : GasComp :=
  ⟨c.name, rnd c.moles, rnd c.pRead, rnd c.initialMoles, 0, rnd c.phi, rnd c.f⟩

theorem goes_gasComp (rnd : ℚ → ℚ) (c : GasComp) :
    Goes gasCompStep (dumpGasComp rnd c) ⟨newGasComp c.name, none, [], 0⟩
      ⟨c.restored rnd, none, [], 0⟩ := by
  unfold dumpGasComp gasCompStep
  exact goes_cons (flat_opt 3 _ _ (by decide) (by decide))
    (goes_cons (flat_opt 2 _ _ (by decide) (by decide))
    (goes_cons (flat_opt 4 _ _ (by decide) (by decide))
    (goes_cons (flat_opt 0 _ _ (by decide) (by decide))
    (goes_cons (flat_opt 6 _ _ (by decide) (by decide))
    (goes_eq (goes_one (flat_opt 7 _ _ (by decide) (by decide))) rfl)))))

/-- The outer reader of `gasPhaseStep`. -/
abbrev gasOuter : Line → RS GasPhase → Res (RS GasPhase × Option GasIn) :=
  outerStep gasPhaseOpts gasPhaseAct gasPhaseEnter (fun s => .stop (s.error, none))

def gasW : List String := ["component", "new_def"]

abbrev GasReady (p : RS GasPhase × Option GasIn) (s : RS GasPhase) : Prop :=
  Ready gasOuter (tagStep gasCompStep) gasPhaseClose gasW p s

def GasQ (s : RS GasPhase) (cs : List GasComp) : Prop :=
  s.save = none ∧ cs.Pairwise (fun c d => lower c.name ≠ lower d.name) ∧
  ∀ d ∈ s.val.comps, ∀ c ∈ cs, lower d.name ≠ lower c.name

def gasAdd (rnd : ℚ → ℚ) (s : RS GasPhase) (c : GasComp) : RS GasPhase :=
  { s with val := { s.val with comps := s.val.comps ++ [c.restored rnd] } }

theorem goes_gasComps (rnd : ℚ → ℚ) (cs : List GasComp) (p : RS GasPhase × Option GasIn)
    (s : RS GasPhase) (hp : GasReady p s) (hq : GasQ s cs) :
    ∃ p', Goes gasPhaseStep
        (cs.flatMap (fun c => optLine "component" [.word c.name] :: dumpGasComp rnd c)) p p' ∧
      GasReady p' (cs.foldl (gasAdd rnd) s) := by
  refine goes_comps (cw := "component") (W := gasW) (by decide) (fun c => [.word c.name])
    (dumpGasComp rnd) (gasAdd rnd) GasQ ?_ cs p s hp hq
  intro s c cs ⟨h1, h2, h3⟩
  have hf : findGas s.val.comps c.name = none := by
    unfold findGas
    rw [List.find?_eq_none]
    intro d hd h
    exact h3 d hd c (List.mem_cons_self ..) (eq_of_beq h)
  have hs : s.setSave none = s := by
    obtain ⟨v, sv, r, e⟩ := s
    obtain rfl : sv = none := h1
    rfl
  refine ⟨((c.name, false), ⟨newGasComp c.name, none, [], 0⟩),
    ((c.name, false), ⟨c.restored rnd, none, [], 0⟩), ?_,
    goes_tag (goes_gasComp rnd c) _, ?_, ?_⟩
  · refine outer_enter 4 _ _ (by decide) (by decide) ?_
    simp only [gasPhaseEnter, if_true, hf, hs]
  · exact ready_some (fun w hw rest => tag_stop (flat_stop (W := gasW) (by decide) w hw rest _) _)
      rfl
  · refine ⟨h1, (List.pairwise_cons.mp h2).2, ?_⟩
    intro d hd c' hc'
    rcases List.mem_append.mp hd with hd | hd
    · exact h3 d hd c' (List.mem_cons_of_mem _ hc')
    · obtain rfl := List.mem_singleton.mp hd
      exact (List.pairwise_cons.mp h2).1 c' hc'

theorem foldl_gasAdd (rnd : ℚ → ℚ) (cs : List GasComp) (s : RS GasPhase) :
    cs.foldl (gasAdd rnd) s
      = { s with val := { s.val with comps := s.val.comps ++ cs.map (GasComp.restored rnd) } } := by
  induction cs generalizing s with
  | nil => simp
  | cons c cs ih => rw [List.foldl_cons, ih]; simp [gasAdd]

def gasTotals : Lens GasPhase ND where
  get c := c.totals
  set t c := { c with totals := t }
  get_set _ _ := rfl
  set_set _ _ _ := rfl
  set_get _ := rfl

/-- The gas phase read from the dumped text. -/
def GasPhase.restored (rnd : ℚ → ℚ) (h : Head) (x : GasPhase) : GasPhase :=
  ⟨h, x.type, rnd x.totalP, rnd x.volume, x.comps.map (GasComp.restored rnd), x.newDef, x.solEq,
    x.nSolution, rnd x.temperature, rnd x.totalMoles, rnd x.vm, x.prIn, rounded rnd x.totals⟩

theorem goes_gasPhase (rnd : ℚ → ℚ) (x : GasPhase) (h : Head)
    (h1 : x.comps.Pairwise (fun c d => lower c.name ≠ lower d.name))
    (h2 : ListOk gasPhaseOpts x.totals) :
    Goes gasPhaseStep (dumpGasPhase rnd x).tail (⟨newGasPhase h, none, [0, 1, 2], 0⟩, none)
      (⟨x.restored rnd h, some 12, [], 0⟩, none) := by
  obtain ⟨hd, ty, tp, vol, cs, nd, se, ns, te, tm, vm, pr, tot⟩ := x
  dsimp only at h1 h2
  unfold dumpGasPhase
  simp only [List.cons_append, List.nil_append, List.tail_cons, List.append_assoc]
  have g1 : Goes gasPhaseStep [optLine "type" [.num ty], optLine "total_p" [.num (rnd tp)],
      optLine "volume" [.num (rnd vol)]] (⟨newGasPhase h, none, [0, 1, 2], 0⟩, none)
      (⟨⟨h, ty, rnd tp, rnd vol, [], false, false, -999, 29815/100, 0, 0, false, []⟩, none, [], 0⟩,
        none) := by
    refine goes_cons (nest_opt 0 _ _ (by decide) (by decide) rfl)
      (goes_cons (nest_opt 1 _ _ (by decide) (by decide) rfl)
      (goes_eq (goes_one (nest_opt 2 _ _ (by decide) (by decide) rfl)) ?_))
    simp only [gasPhaseAct, readInt_int]
    rfl
  obtain ⟨p', g2, r⟩ := goes_gasComps rnd cs _ _
    (ready_none gasW ⟨⟨h, ty, rnd tp, rnd vol, [], false, false, -999, 29815/100, 0, 0, false, []⟩,
      none, [], 0⟩) ⟨rfl, h1, by intro d hd; cases hd⟩
  rw [foldl_gasAdd] at r
  have g3 : Goes gasPhaseStep [optLine "new_def" [boolTok nd],
      optLine "solution_equilibria" [boolTok se], optLine "n_solution" [.num ns],
      optLine "temperature" [.num (rnd te)], optLine "total_moles" [.num (rnd tm)],
      optLine "v_m" [.num (rnd vm)], optLine "pr_in" [boolTok pr], optLine "totals" []] p'
      (⟨⟨h, ty, rnd tp, rnd vol, cs.map (GasComp.restored rnd), nd, se, ns, rnd te, rnd tm, rnd vm,
        pr, []⟩, some 12, [], 0⟩, none) := by
    refine goes_ready (outer := gasOuter) r (by decide)
      (outer_opt 7 _ _ (by decide) (by decide) rfl)
      (goes_cons (nest_opt 8 _ _ (by decide) (by decide) rfl)
      (goes_cons (nest_opt 9 _ _ (by decide) (by decide) rfl)
      (goes_cons (nest_opt 11 _ _ (by decide) (by decide) rfl)
      (goes_cons (nest_opt 10 _ _ (by decide) (by decide) rfl)
      (goes_cons (nest_opt 3 _ _ (by decide) (by decide) rfl)
      (goes_cons (nest_opt 6 _ _ (by decide) (by decide) rfl)
      (goes_eq (goes_one (nest_opt 12 _ _ (by decide) (by decide) rfl)) ?_)))))))
    simp only [gasPhaseAct, readFlag_boolTok, readInt_int]
    rfl
  have g4 := goes_list_outer (opts := gasPhaseOpts) (act := gasPhaseAct) (enter := gasPhaseEnter)
    (inner := tagStep gasCompStep) (close := gasPhaseClose)
    (unknown := fun s => .stop (s.error, none)) gasTotals 12 rnd
    (fun _ _ _ _ _ => rfl) tot h2
    ⟨⟨h, ty, rnd tp, rnd vol, cs.map (GasComp.restored rnd), nd, se, ns, rnd te, rnd tm, rnd vm,
        pr, []⟩, some 12, [], 0⟩ rfl rfl
  have g := goes_append g1 (goes_append g2 (goes_append g3 g4))
  simpa only [List.cons_append, List.nil_append, List.append_assoc, gasTotals,
    GasPhase.restored] using g

/-- What the reader makes of a dumped gas phase. -/
theorem readGasPhase_dump (rnd : ℚ → ℚ) (x : GasPhase) (ls : List Line)
    (h1 : x.comps.Pairwise (fun c d => lower c.name ≠ lower d.name))
    (h2 : ListOk gasPhaseOpts x.totals) (he : BlockEnd ls) :
    readGasPhase (dumpGasPhase rnd x ++ ls)
      = (x.restored rnd ⟨x.head.nUser, x.head.nUser, x.head.desc⟩, 0, ls) := by
  have g := goes_gasPhase rnd x ⟨x.head.nUser, x.head.nUser, x.head.desc⟩ h1 h2
  have hd : dumpGasPhase rnd x
      = headLine "GAS_PHASE_RAW" x.head :: (dumpGasPhase rnd x).tail := by
    simp [dumpGasPhase]
  rw [hd, List.cons_append]
  unfold readGasPhase
  dsimp only
  rw [readHead_headLine, feed_goes g]
  unfold gasPhaseStep
  rw [feed_nest_end _ he]
  rfl

end Verif.Raw
