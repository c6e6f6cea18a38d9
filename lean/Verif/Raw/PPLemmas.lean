import Verif.Raw.BlocksLemmas
import Verif.Raw.PP

/-!
# `EQUILIBRIUM_PHASES_RAW`: lemmas
-/

namespace Verif.Raw

open Verif.OMap Verif.NameDouble

/-- A component as it is read back. -/
def PPComp.restored (rnd : ℚ → ℚ) (c : PPComp) : PPComp :=
  ⟨c.name, c.addFormula, rnd c.si, rnd c.moles, c.forceEquality,
    c.dissolveOnly && !c.precipitateOnly, c.precipitateOnly, rnd c.siOrg, rnd c.delta,
    rnd c.initialMoles, rounded rnd c.totals⟩

def ppCompTotals : Lens PPComp ND where
  get c := c.totals
  set t c := { c with totals := t }
  get_set _ _ := rfl
  set_set _ _ _ := rfl
  set_get _ := rfl

theorem goes_ppComp (rnd : ℚ → ℚ) (c : PPComp) (hc : ListOk ppCompOpts c.totals) :
    Goes ppCompStep (dumpPPComp rnd c) ⟨newPPComp c.name, none, ppReq, 0⟩
      ⟨c.restored rnd, some 10, [], 0⟩ := by
  obtain ⟨nm, af, si, mo, fe, dis, pre, so, de, im, tot⟩ := c
  dsimp only at hc
  unfold dumpPPComp
  have g1 : Goes ppCompStep (nameLine "add_formula" af) ⟨newPPComp nm, none, ppReq, 0⟩
      ⟨⟨nm, af, 0, 10, false, false, false, 0, 0, 0, []⟩, none, ppReq, 0⟩ :=
    goes_name (flat_opt 1 _ _ (by decide) (by decide)) (by rintro rfl; rfl)
  have g2 : Goes ppCompStep
      [optLine "si" [.num (rnd si)], optLine "moles" [.num (rnd mo)],
      optLine "force_equality" [boolTok fe], optLine "dissolve_only" [boolTok dis],
      optLine "precipitate_only" [boolTok pre],
      optLine "si_org" [.num (rnd so)], optLine "delta" [.num (rnd de)],
      optLine "initial_moles" [.num (rnd im)], optLine "totals" []]
      ⟨⟨nm, af, 0, 10, false, false, false, 0, 0, 0, []⟩, none, ppReq, 0⟩
      ⟨⟨nm, af, rnd si, rnd mo, fe, dis && !pre, pre, rnd so, rnd de, rnd im, []⟩, some 10, [],
        0⟩ := by
    refine goes_cons (flat_opt 2 _ _ (by decide) (by decide))
      (goes_cons (flat_opt 3 _ _ (by decide) (by decide))
      (goes_cons (flat_opt 7 _ _ (by decide) (by decide))
      (goes_cons (flat_opt 6 _ _ (by decide) (by decide))
      (goes_cons (flat_opt 8 _ _ (by decide) (by decide))
      (goes_cons (flat_opt 9 _ _ (by decide) (by decide))
      (goes_cons (flat_opt 4 _ _ (by decide) (by decide))
      (goes_cons (flat_opt 5 _ _ (by decide) (by decide))
      (goes_eq (goes_one (flat_opt 10 _ _ (by decide) (by decide))) ?_))))))))
    cases fe <;> cases dis <;> cases pre <;> rfl
  exact goes_append (goes_append g1 g2)
    (goes_list ppCompTotals 10 rnd (fun _ _ _ _ _ => rfl) tot hc _ rfl rfl)

/-- The outer reader of `ppStep`. -/
abbrev ppOuter : Line → RS PPAssemblage → Res (RS PPAssemblage × Option PPIn) :=
  outerStep ppOpts ppAct ppEnter (fun s => .stop (s.error, none))

def ppW : List String := ["component", "eltList"]

abbrev PPReady (p : RS PPAssemblage × Option PPIn) (s : RS PPAssemblage) : Prop :=
  Ready ppOuter (tagStep ppCompStep) ppClose ppW p s

/-- Conditions on the components still to be read. -/
def PPQ (s : RS PPAssemblage) (cs : List (Name × PPComp)) : Prop :=
  (∀ c ∈ cs, c.1 = c.2.name ∧ ListOk ppCompOpts c.2.totals) ∧
  cs.Pairwise (fun c d => lower c.1 ≠ lower d.1) ∧
  ∀ d ∈ s.val.comps, ∀ c ∈ cs, lower c.1 ≠ lower d.1

def ppAdd (rnd : ℚ → ℚ) (s : RS PPAssemblage) (c : Name × PPComp) : RS PPAssemblage :=
  { s with val := { s.val with comps := insert s.val.comps c.1 (c.2.restored rnd) } }

theorem mem_insert {κ ν : Type} [LinearOrder κ] (m : SMap κ ν) (k : κ) (v : ν) (p : κ × ν)
    (h : p ∈ OMap.insert m k v) : p = (k, v) ∨ p ∈ m := by
  induction m with
  | nil => exact Or.inl (List.mem_singleton.mp h)
  | cons q m ih =>
    simp only [OMap.insert] at h
    split at h
    · rcases List.mem_cons.mp h with h | h
      · exact Or.inl h
      · exact Or.inr h
    · split at h
      · rcases List.mem_cons.mp h with h | h
        · exact Or.inl h
        · exact Or.inr (List.mem_cons_of_mem _ h)
      · rcases List.mem_cons.mp h with h | h
        · exact Or.inr (h ▸ List.mem_cons_self ..)
        · rcases ih h with h | h
          · exact Or.inl h
          · exact Or.inr (List.mem_cons_of_mem _ h)

theorem goes_ppComps (rnd : ℚ → ℚ) (cs : List (Name × PPComp))
    (p : RS PPAssemblage × Option PPIn) (s : RS PPAssemblage) (hp : PPReady p s) (hq : PPQ s cs) :
    ∃ p', Goes ppStep
        (cs.flatMap (fun c => optLine "component" [.word c.2.name] :: dumpPPComp rnd c.2)) p p' ∧
      PPReady p' (cs.foldl (ppAdd rnd) s) := by
  refine goes_comps (cw := "component") (W := ppW) (by decide) (fun c => [.word c.2.name])
    (fun c => dumpPPComp rnd c.2) (ppAdd rnd) PPQ ?_ cs p s hp hq
  intro s c cs ⟨h1, h2, h3⟩
  obtain ⟨hn, hl⟩ := h1 c (List.mem_cons_self ..)
  have hf : findPP s.val.comps c.2.name = none := by
    unfold findPP
    rw [Option.map_eq_none_iff, List.find?_eq_none]
    intro d hd h
    rw [← hn] at h
    exact h3 d hd c (List.mem_cons_self ..) (eq_of_beq h)
  refine ⟨(c.2.name, ⟨newPPComp c.2.name, none, ppReq, 0⟩),
    (c.2.name, ⟨c.2.restored rnd, some 10, [], 0⟩), ?_, goes_tag (goes_ppComp rnd c.2 hl) _, ?_, ?_⟩
  · refine outer_enter 1 _ _ (by decide) (by decide) ?_
    simp only [ppEnter, if_true, hf]
  · refine ready_some (fun w hw rest => tag_stop (flat_stop (W := ppW) (by decide) w hw rest _) _)
      ?_
    simp only [ppClose, ppAdd, hn]
    rfl
  · refine ⟨fun d hd => h1 d (List.mem_cons_of_mem _ hd), (List.pairwise_cons.mp h2).2, ?_⟩
    intro d hd c' hc'
    rcases mem_insert _ _ _ _ hd with e | hd
    · subst e; exact fun e => (List.pairwise_cons.mp h2).1 c' hc' e.symm
    · exact h3 d hd c' (List.mem_cons_of_mem _ hc')

theorem foldl_ppAdd (rnd : ℚ → ℚ) (cs : List (Name × PPComp)) (s : RS PPAssemblage) :
    cs.foldl (ppAdd rnd) s
      = { s with val := { s.val with
          comps := cs.foldl (fun m p => insert m p.1 (PPComp.restored rnd p.2)) s.val.comps } } := by
  induction cs generalizing s with
  | nil => rfl
  | cons c cs ih => rw [List.foldl_cons, ih]; rfl

def ppElts : Lens PPAssemblage ND where
  get c := c.eltList
  set t c := { c with eltList := t }
  get_set _ _ := rfl
  set_set _ _ _ := rfl
  set_get _ := rfl

def ppTotals : Lens PPAssemblage ND where
  get c := c.totals
  set t c := { c with totals := t }
  get_set _ _ := rfl
  set_set _ _ _ := rfl
  set_get _ := rfl

/-- The components read back. -/
def ppAll (rnd : ℚ → ℚ) (cs : SMap Name PPComp) : SMap Name PPComp :=
  cs.map (fun p => (p.1, p.2.restored rnd))

/-- The assemblage read from the dumped text. -/
def PPAssemblage.restored (rnd : ℚ → ℚ) (h : Head) (x : PPAssemblage) : PPAssemblage :=
  ⟨h, false, ppAll rnd x.comps, rounded rnd x.eltList,
    rounded rnd x.totals⟩

theorem readPP_dump (rnd : ℚ → ℚ) (x : PPAssemblage) (ls : List Line)
    (h0 : ∀ c ∈ x.comps, c.1 = c.2.name ∧ ListOk ppCompOpts c.2.totals)
    (h1 : x.comps.Pairwise (fun c d => lower c.1 ≠ lower d.1)) (hs : Sorted x.comps)
    (h2 : ListOk ppOpts x.eltList) (h3 : ListOk ppOpts x.totals) (he : BlockEnd ls) :
    readPP (dumpPP rnd x ++ ls)
      = (x.restored rnd ⟨x.head.nUser, x.head.nUser, x.head.desc⟩, 0, ls) := by
  obtain ⟨⟨nu, nue, de⟩, nd, cs, el, tot⟩ := x
  dsimp only at h0 h1 h2 h3 hs
  have g1 : Goes ppStep [optLine "new_def" [.num 0]]
      (⟨newPP ⟨nu, nu, de⟩, none, [], 0⟩, none)
      (⟨newPP ⟨nu, nu, de⟩, none, [], 0⟩, none) :=
    goes_one (nest_opt 2 _ _ (by decide) (by decide) rfl)
  obtain ⟨p', g2, r⟩ := goes_ppComps rnd cs _ _
    (ready_none ppW ⟨newPP ⟨nu, nu, de⟩, none, [], 0⟩) ⟨h0, h1, by intro d hd; cases hd⟩
  rw [foldl_ppAdd] at r
  have hfold : cs.foldl (fun m p => insert m p.1 (PPComp.restored rnd p.2)) (newPP ⟨nu, nu, de⟩).comps
      = ppAll rnd cs := foldl_insert_sorted _ cs hs
  simp only [hfold] at r
  have g3 : Goes ppStep [optLine "eltList" []] p'
      (⟨⟨⟨nu, nu, de⟩, false, ppAll rnd cs, [], []⟩, some 0, [], 0⟩,
        none) :=
    goes_ready (outer := ppOuter) r (by decide) (outer_opt 0 _ _ (by decide) (by decide) rfl)
      (goes_nil _ _)
  have g4 : Goes ppStep (dumpND rnd el)
      (⟨⟨⟨nu, nu, de⟩, false, ppAll rnd cs, [], []⟩, some 0, [], 0⟩,
        none)
      (⟨⟨⟨nu, nu, de⟩, false, ppAll rnd cs, rounded rnd el, []⟩,
        some 0, [], 0⟩, none) :=
    goes_list_outer ppElts 0 rnd (fun _ _ _ _ _ => rfl) el h2
      ⟨⟨⟨nu, nu, de⟩, false, ppAll rnd cs, [], []⟩, some 0, [], 0⟩
      rfl rfl
  have g5 : Goes ppStep [optLine "assemblage_totals" []]
      (⟨⟨⟨nu, nu, de⟩, false, ppAll rnd cs, rounded rnd el, []⟩,
        some 0, [], 0⟩, none)
      (⟨⟨⟨nu, nu, de⟩, false, ppAll rnd cs, rounded rnd el, []⟩,
        some 3, [], 0⟩, none) :=
    goes_one (nest_opt 3 _ _ (by decide) (by decide) rfl)
  have g6 : Goes ppStep (dumpND rnd tot)
      (⟨⟨⟨nu, nu, de⟩, false, ppAll rnd cs, rounded rnd el, []⟩,
        some 3, [], 0⟩, none)
      (⟨⟨⟨nu, nu, de⟩, false, ppAll rnd cs, rounded rnd el,
        rounded rnd tot⟩, some 3, [], 0⟩, none) :=
    goes_list_outer ppTotals 3 rnd (fun _ _ _ _ _ => rfl) tot h3
      ⟨⟨⟨nu, nu, de⟩, false, ppAll rnd cs, rounded rnd el, []⟩, some 3,
        [], 0⟩ rfl rfl
  have g := feed_goes
    (goes_append g1 (goes_append g2 (goes_append g3 (goes_append g4 (goes_append g5 g6))))) ls
  simp only [List.cons_append, List.nil_append, List.append_assoc] at g
  unfold dumpPP
  simp only [List.cons_append, List.nil_append, List.append_assoc]
  unfold readPP
  dsimp only
  rw [readHead_headLine, g]
  unfold ppStep
  rw [feed_nest_end _ he]
  rfl

end Verif.Raw
