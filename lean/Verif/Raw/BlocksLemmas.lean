import Verif.Raw.Lemmas
import Verif.Raw.Blocks

/-!
# `MIX_RAW`, `REACTION_RAW`, `REACTION_TEMPERATURE_RAW`, `REACTION_PRESSURE_RAW`: lemmas
-/

namespace Verif.Raw

open Verif.OMap Verif.NameDouble

theorem readBool_boolTok (set : Bool → α → α) (d b : Bool) (s : RS α) :
    readBool set d [boolTok b] s = { s with val := set b s.val } := by
  cases b <;> rfl

def stepValues : Lens StepList (List ℚ) where
  get c := c.values
  set t c := { c with values := t }
  get_set _ _ := rfl
  set_set _ _ _ := rfl
  set_get _ := rfl

theorem goes_stepList {opts : List Name} {wc wv : String} (rnd : ℚ → ℚ) (h : Head) (n : Int)
    (b : Bool) (vs : List ℚ)
    (hc1 : isOption ('-' :: wc.toList) = true) (hc2 : findOption false opts wc.toList = some 2)
    (he : findOption false opts "equal_increments".toList = some 1)
    (hv1 : isOption ('-' :: wv.toList) = true) (hv2 : findOption false opts wv.toList = some 0) :
    Goes (stepListStep opts)
      ([optLine wc [.num n], optLine "equal_increments" [boolTok b], optLine wv []]
        ++ numLines rnd vs)
      ⟨newStepList h, none, [1, 2], 0⟩ ⟨⟨h, vs.map rnd, n, b⟩, some 0, [], 0⟩ := by
  have g1 : Goes (stepListStep opts)
      [optLine wc [.num n], optLine "equal_increments" [boolTok b], optLine wv []]
      ⟨newStepList h, none, [1, 2], 0⟩ ⟨⟨h, [], n, b⟩, some 0, [], 0⟩ := by
    refine goes_cons (flat_opt 2 _ _ hc1 hc2) (goes_cons (flat_opt 1 _ _ (by decide) he)
      (goes_eq (goes_one (flat_opt 0 _ _ hv1 hv2)) ?_))
    simp only [stepListAct, readInt_int, readBool_boolTok]
    rfl
  refine goes_append g1 ?_
  refine goes_nums_flat stepValues 0 rnd ?_ vs ⟨⟨h, [], n, b⟩, some 0, [], 0⟩ rfl
  intro q qs v r e
  simp only [stepListAct, takeNums_map]
  rfl

theorem readTemperature_dump (rnd : ℚ → ℚ) (x : StepList) (ls : List Line) (he : BlockEnd ls) :
    readStepList temperatureOpts (dumpTemperature rnd x ++ ls)
      = (⟨⟨x.head.nUser, x.head.nUser, x.head.desc⟩, x.values.map rnd, x.steps, x.equal⟩, 0, ls) := by
  have g := goes_stepList (opts := temperatureOpts) (wc := "count_temps") (wv := "temps") rnd
    ⟨x.head.nUser, x.head.nUser, x.head.desc⟩ x.steps x.equal x.values (by decide) (by decide)
    (by decide) (by decide) (by decide)
  unfold dumpTemperature
  rw [List.cons_append, List.cons_append]
  unfold readStepList
  dsimp only
  rw [readHead_headLine, feed_goes g]
  unfold stepListStep
  rw [feed_flat_end _ he]
  rfl

theorem readPressure_dump (rnd : ℚ → ℚ) (x : StepList) (ls : List Line) (he : BlockEnd ls) :
    readStepList pressureOpts (dumpPressure rnd x ++ ls)
      = (⟨⟨x.head.nUser, x.head.nUser, x.head.desc⟩, x.values.map rnd, x.count, x.equal⟩, 0, ls) := by
  have g := goes_stepList (opts := pressureOpts) (wc := "count") (wv := "pressures") rnd
    ⟨x.head.nUser, x.head.nUser, x.head.desc⟩ x.count x.equal x.values (by decide) (by decide)
    (by decide) (by decide) (by decide)
  unfold dumpPressure
  rw [List.cons_append, List.cons_append]
  unfold readStepList
  dsimp only
  rw [readHead_headLine, feed_goes g]
  unfold stepListStep
  rw [feed_flat_end _ he]
  rfl

def reacReactants : Lens Reaction ND where
  get c := c.reactants
  set t c := { c with reactants := t }
  get_set _ _ := rfl
  set_set _ _ _ := rfl
  set_get _ := rfl

def reacElements : Lens Reaction ND where
  get c := c.elements
  set t c := { c with elements := t }
  get_set _ _ := rfl
  set_set _ _ _ := rfl
  set_get _ := rfl

def reacSteps : Lens Reaction (List ℚ) where
  get c := c.steps
  set t c := { c with steps := t }
  get_set _ _ := rfl
  set_set _ _ _ := rfl
  set_get _ := rfl

/-- The reaction read from the dumped text. -/
def Reaction.restored (rnd : ℚ → ℚ) (h : Head) (x : Reaction) : Reaction :=
  ⟨h, rounded rnd x.reactants, x.steps.map rnd, x.count, x.equal, x.units, rounded rnd x.elements⟩

theorem goes_reaction (rnd : ℚ → ℚ) (x : Reaction) (h : Head) (hu : x.units ≠ [])
    (h1 : ListOk reactionOpts x.reactants) (h2 : ListOk reactionOpts x.elements) :
    Goes reactionStep (dumpReaction rnd x).tail ⟨newReaction h, none, [0, 4, 5], 0⟩
      ⟨x.restored rnd h, some 2, [], 0⟩ := by
  obtain ⟨hd, re, st, n, b, u, el⟩ := x
  dsimp only at hu h1 h2
  unfold dumpReaction
  simp only [if_neg hu, List.cons_append, List.nil_append, List.tail_cons, List.append_assoc]
  have g1 : Goes reactionStep [optLine "reactant_list" []] ⟨newReaction h, none, [0, 4, 5], 0⟩
      ⟨newReaction h, some 1, [0, 4, 5], 0⟩ := goes_one (flat_opt 1 _ _ (by decide) (by decide))
  have g2 : Goes reactionStep (dumpND rnd re) ⟨newReaction h, some 1, [0, 4, 5], 0⟩
      ⟨⟨h, rounded rnd re, [], 0, false, "Mol".toList, []⟩, some 1, [0, 4, 5], 0⟩ :=
    goes_list reacReactants 1 rnd (fun _ _ _ _ _ => rfl) re h1 _ rfl rfl
  have g3 : Goes reactionStep [optLine "steps" []]
      ⟨⟨h, rounded rnd re, [], 0, false, "Mol".toList, []⟩, some 1, [0, 4, 5], 0⟩
      ⟨⟨h, rounded rnd re, [], 0, false, "Mol".toList, []⟩, some 3, [0, 4, 5], 0⟩ :=
    goes_one (flat_opt 3 _ _ (by decide) (by decide))
  have g4 : Goes reactionStep (numLines rnd st)
      ⟨⟨h, rounded rnd re, [], 0, false, "Mol".toList, []⟩, some 3, [0, 4, 5], 0⟩
      ⟨⟨h, rounded rnd re, st.map rnd, 0, false, "Mol".toList, []⟩, some 3, [0, 4, 5], 0⟩ := by
    refine goes_nums_flat reacSteps 3 rnd ?_ st
      ⟨⟨h, rounded rnd re, [], 0, false, "Mol".toList, []⟩, some 3, [0, 4, 5], 0⟩ rfl
    intro q qs v r e
    simp only [reactionAct, takeNums_map]
    rfl
  have g5 : Goes reactionStep [optLine "count_steps" [.num n],
      optLine "equal_increments" [boolTok b], optLine "units" [.word u], optLine "element_list" []]
      ⟨⟨h, rounded rnd re, st.map rnd, 0, false, "Mol".toList, []⟩, some 3, [0, 4, 5], 0⟩
      ⟨⟨h, rounded rnd re, st.map rnd, n, b, u, []⟩, some 2, [], 0⟩ := by
    refine goes_cons (flat_opt 5 _ _ (by decide) (by decide))
      (goes_cons (flat_opt 4 _ _ (by decide) (by decide))
      (goes_cons (flat_opt 0 _ _ (by decide) (by decide))
      (goes_eq (goes_one (flat_opt 2 _ _ (by decide) (by decide))) ?_)))
    simp only [reactionAct, readInt_int, readBool_boolTok]
    rfl
  have g6 : Goes reactionStep (dumpND rnd el)
      ⟨⟨h, rounded rnd re, st.map rnd, n, b, u, []⟩, some 2, [], 0⟩
      ⟨⟨h, rounded rnd re, st.map rnd, n, b, u, rounded rnd el⟩, some 2, [], 0⟩ :=
    goes_list reacElements 2 rnd (fun _ _ _ _ _ => rfl) el h2 _ rfl rfl
  have g := goes_append g1 (goes_append g2 (goes_append g3 (goes_append g4 (goes_append g5 g6))))
  simpa only [List.cons_append, List.nil_append, List.append_assoc, Reaction.restored] using g

theorem readReaction_dump (rnd : ℚ → ℚ) (x : Reaction) (ls : List Line) (hu : x.units ≠ [])
    (h1 : ListOk reactionOpts x.reactants) (h2 : ListOk reactionOpts x.elements)
    (he : BlockEnd ls) :
    readReaction (dumpReaction rnd x ++ ls)
      = (x.restored rnd ⟨x.head.nUser, x.head.nUser, x.head.desc⟩, 0, ls) := by
  have g := goes_reaction rnd x ⟨x.head.nUser, x.head.nUser, x.head.desc⟩ hu h1 h2
  have hd : dumpReaction rnd x
      = headLine "REACTION_RAW" x.head :: (dumpReaction rnd x).tail := by
    simp [dumpReaction]
  rw [hd, List.cons_append]
  unfold readReaction
  dsimp only
  rw [readHead_headLine, feed_goes g]
  unfold reactionStep
  rw [feed_flat_end _ he]
  rfl

def mixComps : Lens Mix (SMap Int ℚ) where
  get c := c.comps
  set t c := { c with comps := t }
  get_set _ _ := rfl
  set_set _ _ _ := rfl
  set_get _ := rfl

theorem readMix_dump (rnd : ℚ → ℚ) (x : Mix) (ls : List Line) (hs : Sorted x.comps)
    (he : BlockEnd ls) :
    readMix (dumpMix rnd x ++ ls)
      = (⟨⟨x.head.nUser, x.head.nUser, x.head.desc⟩, rounded rnd x.comps⟩, 0, ls) := by
  have g : Goes mixStep (dumpIntMap rnd x.comps)
      ⟨⟨⟨x.head.nUser, x.head.nUser, x.head.desc⟩, []⟩, some 0, [], 0⟩
      ⟨⟨⟨x.head.nUser, x.head.nUser, x.head.desc⟩, rounded rnd x.comps⟩, some 0, [], 0⟩ := by
    refine goes_intMap mixComps 0 rnd ?_ x.comps hs _ rfl rfl
    intro i q v r e
    simp only [mixAct, trunc_int]
    rfl
  unfold dumpMix
  rw [List.cons_append]
  unfold readMix
  dsimp only
  rw [readHead_headLine, feed_goes g]
  unfold mixStep
  rw [feed_flat_end _ he]

end Verif.Raw
