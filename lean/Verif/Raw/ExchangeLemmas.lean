import Verif.Raw.Lemmas
import Verif.Raw.Exchange

/-!
# `EXCHANGE_RAW`: lemmas
-/

namespace Verif.Raw

open Verif.OMap Verif.NameDouble

/-- A component with its doubles rounded. -/
def ExchComp.rounded (rnd : ℚ → ℚ) (c : ExchComp) : ExchComp :=
  { c with
    totals := Raw.rounded rnd c.totals
    la := rnd c.la
    chargeBalance := rnd c.chargeBalance
    phaseProportion := rnd c.phaseProportion
    formulaZ := rnd c.formulaZ }

def exchTotals : Lens ExchComp ND where
  get c := c.totals
  set t c := { c with totals := t }
  get_set _ _ := rfl
  set_set _ _ _ := rfl
  set_get _ := rfl

theorem goes_exchComp (rnd : ℚ → ℚ) (c : ExchComp) (hc : ListOk exchCompOpts c.totals) (e : Nat) :
    Goes exchCompStep (dumpExchComp rnd c) ⟨newExchComp c.formula, none, [2, 3, 6], e⟩
      ⟨c.rounded rnd, some 8, [], e⟩ := by
  unfold dumpExchComp exchCompStep
  refine goes_append (goes_append (goes_append (goes_append (goes_append
    (goes_one (flat_opt 8 _ _ (by decide) (by decide)))
    (goes_list exchTotals 8 rnd (fun _ _ _ _ _ => rfl) c.totals hc _ rfl rfl))
    (goes_cons (flat_opt 3 _ _ (by decide) (by decide))
      (goes_one (flat_opt 2 _ _ (by decide) (by decide)))))
    (goes_name (flat_opt 4 _ _ (by decide) (by decide)) ?_))
    (goes_name (flat_opt 5 _ _ (by decide) (by decide)) ?_))
    (goes_cons (flat_opt 7 _ _ (by decide) (by decide))
      (goes_eq (goes_one (flat_opt 6 _ _ (by decide) (by decide))) ?_))
  · intro h; rw [h]; rfl
  · intro h; rw [h]; rfl
  · rfl

/-- The outer reader of `exchangeStep`. -/
abbrev exchOuter : Line → RS Exchange → Res (RS Exchange × Option ExchIn) :=
  outerStep exchangeOpts exchangeAct exchangeEnter (fun s => .stop (s.error, none))

/-- The options of the outer reader that can follow a component. -/
def exchW : List String := ["component", "new_def"]

/-- The state after the components read so far. -/
abbrev ExchReady (p : RS Exchange × Option ExchIn) (s : RS Exchange) : Prop :=
  Ready exchOuter (tagStep exchCompStep) exchangeClose exchW p s

/-- Components already read cannot be taken for the ones to come. -/
def ExchQ (s : RS Exchange) (cs : List ExchComp) : Prop :=
  (∀ c ∈ cs, ListOk exchCompOpts c.totals) ∧
  cs.Pairwise (fun c d => d.formula ∉ keys c.totals) ∧
  ∀ d ∈ s.val.comps, ∀ c ∈ cs, c.formula ∉ keys d.totals

/-- The state after one more component. -/
def exchAdd (rnd : ℚ → ℚ) (s : RS Exchange) (c : ExchComp) : RS Exchange :=
  { s with val := { s.val with comps := s.val.comps ++ [c.rounded rnd] } }

theorem keys_rounded {κ : Type} (rnd : ℚ → ℚ) (nd : SMap κ ℚ) : keys (rounded rnd nd) = keys nd := by
  simp [keys, rounded]

theorem goes_exchComps (rnd : ℚ → ℚ) (cs : List ExchComp) (p : RS Exchange × Option ExchIn)
    (s : RS Exchange) (hp : ExchReady p s) (hq : ExchQ s cs) :
    ∃ p', Goes exchangeStep
        (cs.flatMap (fun c => optLine "component" [.word c.formula] :: dumpExchComp rnd c)) p p' ∧
      ExchReady p' (cs.foldl (exchAdd rnd) s) := by
  refine goes_comps (cw := "component") (W := exchW) (by decide) (fun c => [.word c.formula]) (dumpExchComp rnd) (exchAdd rnd) ExchQ
    ?_ cs p s hp hq
  intro s c cs ⟨h1, h2, h3⟩
  have hf : findComp s.val.comps c.formula = none := by
    unfold findComp
    rw [List.find?_eq_none]
    intro d hd h
    exact h3 d hd c (List.mem_cons_self ..) (List.contains_iff_mem.mp h)
  refine ⟨((c.formula, false), ⟨newExchComp c.formula, none, [2, 3, 6], 0⟩),
    ((c.formula, false), ⟨c.rounded rnd, some 8, [], 0⟩), ?_,
    goes_tag (goes_exchComp rnd c (h1 c (List.mem_cons_self ..)) 0) _, ?_, ?_⟩
  · refine outer_enter 1 _ _ (by decide) (by decide) ?_
    simp only [exchangeEnter, if_true, hf]
  · exact ready_some (fun w hw rest => tag_stop (flat_stop (W := exchW) (by decide) w hw rest _) _) rfl
  · refine ⟨fun d hd => h1 d (List.mem_cons_of_mem _ hd), (List.pairwise_cons.mp h2).2, ?_⟩
    intro d hd c' hc'
    rcases List.mem_append.mp hd with hd | hd
    · exact h3 d hd c' (List.mem_cons_of_mem _ hc')
    · obtain rfl := List.mem_singleton.mp hd
      have := (List.pairwise_cons.mp h2).1 c' hc'
      simpa only [ExchComp.rounded, keys_rounded] using this

theorem foldl_exchAdd (rnd : ℚ → ℚ) (cs : List ExchComp) (s : RS Exchange) :
    cs.foldl (exchAdd rnd) s
      = { s with val := { s.val with comps := s.val.comps ++ cs.map (ExchComp.rounded rnd) } } := by
  induction cs generalizing s with
  | nil => simp
  | cons c cs ih => rw [List.foldl_cons, ih]; simp [exchAdd]

/-- The lines of an exchange assemblage between the header and the entries of `-totals`. -/
def exchBody (rnd : ℚ → ℚ) (x : Exchange) : List Line :=
  [optLine "exchange_gammas" [boolTok x.pitzer]]
  ++ x.comps.flatMap (fun c => optLine "component" [.word c.formula] :: dumpExchComp rnd c)
  ++ [optLine "new_def" [.num 0], optLine "solution_equilibria" [.num 0],
      optLine "n_solution" [.num (x.nSolution : ℚ)], optLine "totals" []]

theorem dumpExchange_eq (rnd : ℚ → ℚ) (x : Exchange) :
    dumpExchange rnd x
      = headLine "EXCHANGE_RAW" x.head :: (exchBody rnd x ++ dumpND rnd x.totals) := by
  simp [dumpExchange, exchBody]

theorem goes_exchBody (rnd : ℚ → ℚ) (x : Exchange) (h : Head)
    (h1 : ∀ c ∈ x.comps, ListOk exchCompOpts c.totals)
    (h2 : x.comps.Pairwise (fun c d => d.formula ∉ keys c.totals)) :
    Goes exchangeStep (exchBody rnd x) (⟨newExchange h, none, [0], 0⟩, none)
      (⟨⟨h, x.pitzer, x.comps.map (ExchComp.rounded rnd), false, false, x.nSolution, []⟩,
        none, [], 0⟩, none) := by
  obtain ⟨hd, pz, cs, nd, se, ns, tot⟩ := x
  dsimp only at h1 h2
  have hb : exchangeAct 2 [boolTok pz] ⟨newExchange h, none, [0], 0⟩
      = ⟨{ newExchange h with pitzer := pz }, none, [], 0⟩ := by
    cases pz <;> rfl
  have g1 : Goes exchangeStep [optLine "exchange_gammas" [boolTok pz]]
      (⟨newExchange h, none, [0], 0⟩, none)
      (⟨{ newExchange h with pitzer := pz }, none, [], 0⟩, none) := by
    refine goes_one ?_
    rw [← hb]
    exact nest_opt 2 _ _ (by decide) (by decide) rfl
  obtain ⟨p', g2, r⟩ := goes_exchComps rnd cs _ _
    (ready_none exchW ⟨{ newExchange h with pitzer := pz }, none, [], 0⟩)
    ⟨h1, h2, by intro d hd; cases hd⟩
  rw [foldl_exchAdd] at r
  refine goes_append (goes_append g1 g2) ?_
  refine goes_ready (outer := exchOuter) r (by decide) (outer_opt 3 _ _ (by decide) (by decide) rfl)
    (goes_cons (nest_opt 4 _ _ (by decide) (by decide) rfl)
    (goes_cons (nest_opt 5 _ _ (by decide) (by decide) rfl)
    (goes_eq (goes_one (nest_opt 6 _ _ (by decide) (by decide) rfl)) ?_)))
  simp only [exchangeAct, readBool, readInt, readPair, newExchange, List.nil_append]
  simp

/-- What the reader makes of a dumped exchange assemblage. -/
theorem readExchange_dump (rnd : ℚ → ℚ) (x : Exchange) (ls : List Line)
    (h1 : ∀ c ∈ x.comps, ListOk exchCompOpts c.totals)
    (h2 : x.comps.Pairwise (fun c d => d.formula ∉ keys c.totals))
    (h3 : x.totals = []) (he : BlockEnd ls) :
    readExchange (dumpExchange rnd x ++ ls)
      = ({ x with
            head := ⟨x.head.nUser, x.head.nUser, x.head.desc⟩
            comps := sortComps (x.comps.map (ExchComp.rounded rnd))
            newDef := false
            solEq := false }, 0, ls) := by
  rw [dumpExchange_eq, h3, dumpND_nil, List.append_nil, List.cons_append]
  unfold readExchange
  dsimp only
  rw [readHead_headLine, feed_goes (goes_exchBody rnd x _ h1 h2)]
  unfold exchangeStep
  rw [feed_nest_end _ he]
  simp only [nestEnd, RS.check, h3]
  rfl

end Verif.Raw
