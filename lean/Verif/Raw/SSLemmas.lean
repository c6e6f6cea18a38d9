import Verif.Raw.BlocksLemmas
import Verif.Raw.SS

/-!
# `SOLID_SOLUTIONS_RAW`: lemmas
-/

namespace Verif.Raw

open Verif.OMap Verif.NameDouble

/-- A component as it is read back. -/
def SSComp.restored (rnd : ℚ → ℚ) (c : SSComp) : SSComp :=
  ⟨c.name, rnd c.moles, rnd c.initialMoles, rnd c.initMoles, rnd c.delta, rnd c.fraction,
    rnd c.logLambda, rnd c.logFraction, rnd c.dn, rnd c.dnc, rnd c.dnb⟩

theorem goes_ssComp (rnd : ℚ → ℚ) (c : SSComp) :
    Goes ssCompStep (dumpSSComp rnd c) ⟨newSSComp c.name, none, [], 0⟩
      ⟨c.restored rnd, none, [], 0⟩ :=
  goes_cons (flat_opt 2 _ _ (by decide) (by decide))
    (goes_cons (flat_opt 1 _ _ (by decide) (by decide))
    (goes_cons (flat_opt 3 _ _ (by decide) (by decide))
    (goes_cons (flat_opt 4 _ _ (by decide) (by decide))
    (goes_cons (flat_opt 5 _ _ (by decide) (by decide))
    (goes_cons (flat_opt 6 _ _ (by decide) (by decide))
    (goes_cons (flat_opt 7 _ _ (by decide) (by decide))
    (goes_cons (flat_opt 8 _ _ (by decide) (by decide))
    (goes_cons (flat_opt 9 _ _ (by decide) (by decide))
    (goes_one (flat_opt 10 _ _ (by decide) (by decide)))))))))))

/-- The outer reader of `ssStep`. -/
abbrev ssOuter : Line → RS SS → Res (RS SS × Option SSCompIn) :=
  outerStep ssOpts ssAct ssEnter (fun s => .stop (s, none))

def ssW : List String := ["component", "tk"]

abbrev SSReady (p : RS SS × Option SSCompIn) (s : RS SS) : Prop :=
  Ready ssOuter (tagStep ssCompStep) ssClose ssW p s

def SSQ (s : RS SS) (cs : List SSComp) : Prop :=
  (cs.map SSComp.name).Nodup ∧ (∀ d ∈ s.val.comps, ∀ c ∈ cs, d.name ≠ c.name) ∧ s.save = none

def ssAdd (rnd : ℚ → ℚ) (s : RS SS) (c : SSComp) : RS SS :=
  { s with val := { s.val with comps := s.val.comps ++ [c.restored rnd] } }

theorem goes_ssComps (rnd : ℚ → ℚ) (cs : List SSComp) (p : RS SS × Option SSCompIn) (s : RS SS)
    (hp : SSReady p s) (hq : SSQ s cs) :
    ∃ p', Goes ssStep
        (cs.flatMap (fun c => optLine "component" [.word c.name] :: dumpSSComp rnd c)) p p' ∧
      SSReady p' (cs.foldl (ssAdd rnd) s) := by
  refine goes_comps (cw := "component") (W := ssW) (by decide) (fun c => [.word c.name])
    (dumpSSComp rnd) (ssAdd rnd) SSQ ?_ cs p s hp hq
  intro s c cs ⟨h2, h3, h4⟩
  have hf : findSSComp s.val.comps c.name = none := by
    unfold findSSComp
    rw [List.find?_eq_none]
    intro d hd h
    exact h3 d hd c (List.mem_cons_self ..) (eq_of_beq h)
  obtain ⟨v, sv, r, e⟩ := s
  obtain rfl : sv = none := h4
  rw [List.map_cons, List.nodup_cons] at h2
  refine ⟨((c.name, false), ⟨newSSComp c.name, none, [], 0⟩),
    ((c.name, false), ⟨c.restored rnd, none, [], 0⟩), ?_, goes_tag (goes_ssComp rnd c) _, ?_, ?_⟩
  · refine outer_enter 4 _ _ (by decide) (by decide) ?_
    dsimp only at hf
    simp only [ssEnter, true_or, if_true, hf]
    rfl
  · exact ready_some (fun w hw rest => tag_stop (flat_stop (W := ssW) (by decide) w hw rest _) _)
      rfl
  · refine ⟨h2.2, ?_, rfl⟩
    intro d hd c' hc'
    rcases List.mem_append.mp hd with hd | hd
    · exact h3 d hd c' (List.mem_cons_of_mem _ hc')
    · obtain rfl := List.mem_singleton.mp hd
      exact fun e => h2.1 (List.mem_map.mpr ⟨c', hc', e.symm⟩)

theorem foldl_ssAdd (rnd : ℚ → ℚ) (cs : List SSComp) (s : RS SS) :
    cs.foldl (ssAdd rnd) s
      = { s with val := { s.val with comps := s.val.comps ++ cs.map (SSComp.restored rnd) } } := by
  induction cs generalizing s with
  | nil => simp
  | cons c cs ih => rw [List.foldl_cons, ih]; simp [ssAdd]

def ssTotals : Lens SS ND where
  get c := c.totals
  set t c := { c with totals := t }
  get_set _ _ := rfl
  set_set _ _ _ := rfl
  set_get _ := rfl

/-- A solid solution as it is read back under the name `k`. -/
def SS.restored (rnd : ℚ → ℚ) (k : Name) (x : SS) : SS :=
  ⟨k, x.comps.map (SSComp.restored rnd), rnd x.tk, x.inputCase,
    (rnd x.p.1, rnd x.p.2.1, rnd x.p.2.2.1, rnd x.p.2.2.2), rnd x.ag0, rnd x.ag1, rnd x.a0,
    rnd x.a1, rnd x.xb1, rnd x.xb2, x.miscibility, x.spinodal, x.ssIn, rnd x.totalMoles,
    rnd x.dn, rounded rnd x.totals⟩

theorem goes_ss (rnd : ℚ → ℚ) (k : Name) (x : SS) (h1 : (x.comps.map SSComp.name).Nodup)
    (h2 : ListOk ssOpts x.totals) :
    Goes ssStep (dumpSS rnd x) (⟨newSS k, none, [], 0⟩, none)
      (⟨x.restored rnd k, some 16, [], 0⟩, none) := by
  obtain ⟨nm, cs, tk, ic, ⟨pa, pb, pc, pd⟩, ag0, ag1, a0, a1, xb1, xb2, mi, sp, si, tm, dn, tot⟩ := x
  dsimp only at h1 h2
  unfold dumpSS
  obtain ⟨p', g1, r⟩ := goes_ssComps rnd cs _ _
    (ready_none ssW ⟨newSS k, none, [], 0⟩) ⟨h1, (by intro d hd; cases hd), rfl⟩
  rw [foldl_ssAdd] at r
  have g2 : Goes ssStep
      [optLine "tk" [.num (rnd tk)], optLine "input_case" [.num ic],
      optLine "p" [.num (rnd pa), .num (rnd pb), .num (rnd pc), .num (rnd pd)],
      optLine "ag0" [.num (rnd ag0)], optLine "ag1" [.num (rnd ag1)],
      optLine "a0" [.num (rnd a0)], optLine "a1" [.num (rnd a1)],
      optLine "xb1" [.num (rnd xb1)], optLine "xb2" [.num (rnd xb2)],
      optLine "miscibility" [boolTok mi], optLine "spinodal" [boolTok sp],
      optLine "ss_in" [boolTok si], optLine "total_moles" [.num (rnd tm)],
      optLine "dn" [.num (rnd dn)], optLine "totals" []] p'
      (⟨⟨k, cs.map (SSComp.restored rnd), rnd tk, ic, (rnd pa, rnd pb, rnd pc, rnd pd), rnd ag0,
        rnd ag1, rnd a0, rnd a1, rnd xb1, rnd xb2, mi, sp, si, rnd tm, rnd dn, []⟩, some 16, [], 0⟩,
        none) := by
    refine goes_ready (outer := ssOuter) r (by decide)
      (outer_opt 7 _ _ (by decide) (by decide) rfl)
      (goes_cons (nest_opt 13 _ _ (by decide) (by decide) rfl)
      (goes_cons (nest_opt 14 _ _ (by decide) (by decide) rfl)
      (goes_cons (nest_opt 10 _ _ (by decide) (by decide) rfl)
      (goes_cons (nest_opt 11 _ _ (by decide) (by decide) rfl)
      (goes_cons (nest_opt 2 _ _ (by decide) (by decide) rfl)
      (goes_cons (nest_opt 3 _ _ (by decide) (by decide) rfl)
      (goes_cons (nest_opt 8 _ _ (by decide) (by decide) rfl)
      (goes_cons (nest_opt 9 _ _ (by decide) (by decide) rfl)
      (goes_cons (nest_opt 5 _ _ (by decide) (by decide) rfl)
      (goes_cons (nest_opt 6 _ _ (by decide) (by decide) rfl)
      (goes_cons (nest_opt 15 _ _ (by decide) (by decide) rfl)
      (goes_cons (nest_opt 1 _ _ (by decide) (by decide) rfl)
      (goes_cons (nest_opt 17 _ _ (by decide) (by decide) rfl)
      (goes_eq (goes_one (nest_opt 16 _ _ (by decide) (by decide) rfl)) ?_))))))))))))))
    simp only [ssAct, readInt_int, readBool_boolTok]
    rfl
  rw [List.append_assoc]
  refine goes_append g1 (goes_append g2 ?_)
  exact goes_list_outer ssTotals 16 rnd (fun _ _ _ _ _ => rfl) tot h2
    ⟨⟨k, cs.map (SSComp.restored rnd), rnd tk, ic, (rnd pa, rnd pb, rnd pc, rnd pd), rnd ag0,
        rnd ag1, rnd a0, rnd a1, rnd xb1, rnd xb2, mi, sp, si, rnd tm, rnd dn, []⟩, some 16, [], 0⟩
    rfl rfl

/-- The outer reader of `ssAssemblageStep`. -/
abbrev ssaOuter : Line → RS SSAssemblage → Res (RS SSAssemblage × Option SSIn) :=
  outerStep ssAssemblageOpts ssAssemblageAct ssAssemblageEnter (fun s => .stop (s.error, none))

def ssaW : List String := ["solid_solution", "new_def"]

abbrev SSAReady (p : RS SSAssemblage × Option SSIn) (s : RS SSAssemblage) : Prop :=
  Ready ssaOuter (tagStep ssStep) ssAssemblageClose ssaW p s

def SSAQ (s : RS SSAssemblage) (cs : SMap Name SS) : Prop :=
  (∀ c ∈ cs, (c.2.comps.map SSComp.name).Nodup ∧ ListOk ssOpts c.2.totals) ∧
  (cs.map Prod.fst).Nodup ∧ ∀ c ∈ cs, c.1 ∉ keys s.val.sss

def ssaAdd (rnd : ℚ → ℚ) (s : RS SSAssemblage) (c : Name × SS) : RS SSAssemblage :=
  { s with val := { s.val with sss := insert s.val.sss c.1 (c.2.restored rnd c.1) } }

theorem ss_stops (w : String) (hw : w ∈ ssaW) (rest : List Tok) (s : RS SS) :
    ssStep (optLine w rest) (s, none) = .stop (s, none) := by
  have hu : Unknown ssOpts ssaW := by decide
  unfold ssStep nestStep outerStep
  simp only [getOption_err rest (hu w hw).1 (hu w hw).2]

theorem goes_sss (rnd : ℚ → ℚ) (cs : SMap Name SS) (p : RS SSAssemblage × Option SSIn)
    (s : RS SSAssemblage) (hp : SSAReady p s) (hq : SSAQ s cs) :
    ∃ p', Goes ssAssemblageStep
        (cs.flatMap (fun c => optLine "solid_solution" [.word c.1] :: dumpSS rnd c.2)) p p' ∧
      SSAReady p' (cs.foldl (ssaAdd rnd) s) := by
  refine goes_comps (cw := "solid_solution") (W := ssaW) (by decide) (fun c => [.word c.1])
    (fun c => dumpSS rnd c.2) (ssaAdd rnd) SSAQ ?_ cs p s hp hq
  intro s c cs ⟨h1, h2, h3⟩
  obtain ⟨hn, hl⟩ := h1 c (List.mem_cons_self ..)
  rw [List.map_cons, List.nodup_cons] at h2
  have hf : find s.val.sss c.1 = none :=
    (find_eq_none_iff _ _).mpr (h3 c (List.mem_cons_self ..))
  refine ⟨(c.1, (⟨newSS c.1, none, [], 0⟩, none)),
    (c.1, (⟨c.2.restored rnd c.1, some 16, [], 0⟩, none)), ?_,
    goes_tag (goes_ss rnd c.1 c.2 hn hl) _, ?_, ?_⟩
  · refine outer_enter 0 _ _ (by decide) (by decide) ?_
    simp only [ssAssemblageEnter, if_true, hf]
  · exact ready_some (fun w hw rest => tag_stop (ss_stops w hw rest _) _) rfl
  · refine ⟨fun d hd => h1 d (List.mem_cons_of_mem _ hd), h2.2, ?_⟩
    intro d hd hm
    have hm : d.1 ∈ keys (OMap.insert s.val.sss c.1 (c.2.restored rnd c.1)) := hm
    rw [mem_keys_insert] at hm
    rcases hm with e | hm
    · exact h2.1 (e ▸ List.mem_map_of_mem hd)
    · exact h3 d (List.mem_cons_of_mem _ hd) hm

theorem foldl_ssaAdd (rnd : ℚ → ℚ) (cs : SMap Name SS) (s : RS SSAssemblage) :
    cs.foldl (ssaAdd rnd) s
      = { s with val := { s.val with
          sss := cs.foldl (fun m p => insert m p.1 (SS.restored rnd p.1 p.2)) s.val.sss } } := by
  induction cs generalizing s with
  | nil => rfl
  | cons c cs ih => rw [List.foldl_cons, ih]; rfl

theorem foldl_insert_key_aux {κ ν μ : Type} [LinearOrder κ] (f : κ → ν → μ) (nd : SMap κ ν)
    (m : SMap κ μ) (hs : Sorted nd) (hm : ∀ p ∈ m, ∀ q ∈ nd, p.1 < q.1) :
    nd.foldl (fun m p => insert m p.1 (f p.1 p.2)) m = m ++ nd.map (fun p => (p.1, f p.1 p.2)) := by
  induction nd generalizing m with
  | nil => simp
  | cons p nd ih =>
    obtain ⟨h1, h2⟩ := List.pairwise_cons.mp hs
    simp only [List.foldl_cons, List.map_cons]
    rw [insert_last m p.1 (f p.1 p.2) (fun q hq => hm q hq p (List.mem_cons_self ..)), ih _ h2]
    · simp
    · intro q hq r hr
      rcases List.mem_append.mp hq with hq | hq
      · exact hm q hq r (List.mem_cons_of_mem _ hr)
      · obtain rfl := List.mem_singleton.mp hq
        exact h1 r hr

def ssaTotals : Lens SSAssemblage ND where
  get c := c.totals
  set t c := { c with totals := t }
  get_set _ _ := rfl
  set_set _ _ _ := rfl
  set_get _ := rfl

/-- The solid solutions read back. -/
def ssAll (rnd : ℚ → ℚ) (cs : SMap Name SS) : SMap Name SS :=
  cs.map (fun p => (p.1, p.2.restored rnd p.1))

/-- The assemblage read from the dumped text. -/
def SSAssemblage.restored (rnd : ℚ → ℚ) (h : Head) (x : SSAssemblage) : SSAssemblage :=
  ⟨h, ssAll rnd x.sss, x.newDef, rounded rnd x.totals⟩

theorem readSSAssemblage_dump (rnd : ℚ → ℚ) (x : SSAssemblage) (ls : List Line)
    (h0 : ∀ c ∈ x.sss, (c.2.comps.map SSComp.name).Nodup ∧ ListOk ssOpts c.2.totals)
    (hs : Sorted x.sss) (h2 : ListOk ssAssemblageOpts x.totals) (he : BlockEnd ls) :
    readSSAssemblage (dumpSSAssemblage rnd x ++ ls)
      = (x.restored rnd ⟨x.head.nUser, x.head.nUser, x.head.desc⟩, 0, ls) := by
  obtain ⟨⟨nu, nue, de⟩, cs, nd, tot⟩ := x
  dsimp only at h0 h2 hs
  have hnd : (cs.map Prod.fst).Nodup := by
    refine (List.pairwise_map.mpr ?_)
    exact hs.imp (fun h => ne_of_lt h)
  obtain ⟨p', g1, r⟩ := goes_sss rnd cs _ _
    (ready_none ssaW ⟨newSSAssemblage ⟨nu, nu, de⟩, none, [], 0⟩)
    ⟨h0, hnd, by intro c _ hm; cases hm⟩
  rw [foldl_ssaAdd] at r
  have hfold : cs.foldl (fun m p => insert m p.1 (SS.restored rnd p.1 p.2))
      (newSSAssemblage ⟨nu, nu, de⟩).sss = ssAll rnd cs := by
    have := foldl_insert_key_aux (SS.restored rnd) cs [] hs (by simp)
    exact this
  simp only [hfold] at r
  have g2 : Goes ssAssemblageStep [optLine "new_def" [boolTok nd], optLine "SSassemblage_totals" []]
      p' (⟨⟨⟨nu, nu, de⟩, ssAll rnd cs, nd, []⟩, some 1, [], 0⟩, none) := by
    refine goes_ready (outer := ssaOuter) r (by decide)
      (outer_opt 2 _ _ (by decide) (by decide) rfl)
      (goes_eq (goes_one (nest_opt 1 _ _ (by decide) (by decide) rfl)) ?_)
    simp only [ssAssemblageAct, readFlag_boolTok]
    rfl
  have g3 : Goes ssAssemblageStep (dumpND rnd tot)
      (⟨⟨⟨nu, nu, de⟩, ssAll rnd cs, nd, []⟩, some 1, [], 0⟩, none)
      (⟨⟨⟨nu, nu, de⟩, ssAll rnd cs, nd, rounded rnd tot⟩, some 1, [], 0⟩, none) :=
    goes_list_outer ssaTotals 1 rnd (fun _ _ _ _ _ => rfl) tot h2
      ⟨⟨⟨nu, nu, de⟩, ssAll rnd cs, nd, []⟩, some 1, [], 0⟩ rfl rfl
  have g := feed_goes (goes_append g1 (goes_append g2 g3)) ls
  simp only [List.cons_append, List.nil_append, List.append_assoc] at g
  unfold dumpSSAssemblage
  simp only [List.cons_append, List.nil_append, List.append_assoc]
  unfold readSSAssemblage
  dsimp only
  rw [readHead_headLine, g]
  unfold ssAssemblageStep
  rw [feed_nest_end _ he]
  rfl

end Verif.Raw
