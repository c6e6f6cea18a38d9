import Verif.Raw.FileKinds

/-!
# A whole dump file, dumped again: lemmas
-/

namespace Verif.Raw

open Verif.OMap Verif.NameDouble

/-- The entities chosen from what was read into an empty object are those that were written. -/
theorem chosen_loaded {β : Type} (head : β → Head) (res : β → β) (P : β → Prop) (p : Pick)
    (m : SMap Int β) (hm : MapOk head P p m) (hn : ∀ x, (head (res x)).nUser = (head x).nUser) :
    chosen head p (loaded head res p m []) = (chosen head p m).map res := by
  have hc := mem_chosen head p m hm.1 (fun e he => (hm.2 e he).1)
  have hfind : p.on = true → ∀ n, 0 ≤ n → (p.nums = [] ∨ n ∈ p.nums) →
      find (loaded head res p m []) n = (find m n).map res := by
    intro hon n h0 hp
    cases h : find m n with
    | none =>
      refine find_foldl_not (fun x => (head x).nUser) res _ [] (by simp [Sorted]) n ?_
      intro x hx e
      have := ((hc x).mp hx).2.2.1
      rw [e, h] at this
      cases this
    | some x =>
      have h1 := (hm.2 (n, x) (mem_of_find h)).1
      dsimp only at h1
      subst h1
      refine find_foldl_mem (fun x => (head x).nUser) res _ [] (by simp [Sorted]) ?_ x
        ((hc x).mpr ⟨hon, h0, h, hp⟩)
      intro a ha b hb e
      have e1 := ((hc a).mp ha).2.2.1
      have e2 := ((hc b).mp hb).2.2.1
      rw [e, e2] at e1
      exact (Option.some.inj e1).symm
  have hneg : ∀ n, ¬ 0 ≤ n → find (loaded head res p m []) n = none := by
    intro n h0
    refine find_foldl_not (fun x => (head x).nUser) res _ [] (by simp [Sorted]) n ?_
    intro x hx e
    exact h0 (e ▸ ((hc x).mp hx).2.1)
  cases hon : p.on with
  | false => simp [chosen, hon]
  | true =>
    by_cases hs : p.nums = []
    · have hl : loaded head res p m []
          = (m.filter (fun e => decide (0 ≤ e.1) && decide (0 ≤ (head e.2).nUser))).map
              (fun e => (e.1, res e.2)) := by
        have hsf := sorted_filter hm.1
          (fun e => decide (0 ≤ e.1) && decide (0 ≤ (head e.2).nUser))
        rw [← foldl_insert_sorted res _ hsf]
        simp only [loaded, chosen, hon, hs, if_true, List.foldl_map]
        refine List.foldl_ext _ _ _ ?_
        intro a e he
        rw [(hm.2 e (List.mem_of_mem_filter he)).1]
      rw [hl]
      simp only [chosen, hon, hs, if_true, List.filter_map, List.map_map, List.filter_filter]
      simp only [Function.comp_apply, hn, Bool.and_self]
      rfl
    · have key : ∀ ns : List Int, (∀ n ∈ ns, n ∈ p.nums) →
          (ns.filterMap (find (loaded head res p m []))).filter
              (fun x => decide (0 ≤ (head x).nUser))
            = ((ns.filterMap (find m)).filter (fun x => decide (0 ≤ (head x).nUser))).map res := by
        intro ns
        induction ns with
        | nil => intro _; rfl
        | cons n ns ih =>
          intro h
          have ih := ih (fun k hk => h k (List.mem_cons_of_mem _ hk))
          by_cases h0 : 0 ≤ n
          · have hf := hfind hon n h0 (Or.inr (h n (List.mem_cons_self ..)))
            cases hx : find m n with
            | none =>
              rw [hx] at hf
              rw [List.filterMap_cons_none hf, List.filterMap_cons_none hx, ih]
            | some x =>
              rw [hx] at hf
              have h1 := (hm.2 (n, x) (mem_of_find hx)).1
              dsimp only at h1
              rw [List.filterMap_cons_some hf, List.filterMap_cons_some hx,
                List.filter_cons_of_pos (by rw [hn, ← h1]; simpa using h0),
                List.filter_cons_of_pos (by rw [← h1]; simpa using h0), ih, List.map_cons]
          · rw [List.filterMap_cons_none (hneg n h0)]
            cases hx : find m n with
            | none => rw [List.filterMap_cons_none hx, ih]
            | some x =>
              have h1 := (hm.2 (n, x) (mem_of_find hx)).1
              dsimp only at h1
              rw [List.filterMap_cons_some hx,
                List.filter_cons_of_neg (by rw [← h1]; simpa using h0), ih]
      simp only [chosen, hon, hs, if_true, if_false]
      exact key p.nums (fun _ h => h)

theorem redump_kind {β : Type} {head : β → Head} {res : β → β} {P : β → Prop} {p : Pick}
    {m : SMap Int β} {dump : β → List Line} (hm : MapOk head P p m)
    (hn : ∀ x, (head (res x)).nUser = (head x).nUser)
    (hd : ∀ x ∈ chosen head p m, dump (res x) = dump x) :
    (chosen head p (loaded head res p m [])).flatMap dump = (chosen head p m).flatMap dump := by
  rw [chosen_loaded head res P p m hm hn, List.flatMap_map]
  exact List.flatMap_congr hd

theorem dumpND_rounded {rnd : ℚ → ℚ} (hr : ∀ q, rnd (rnd q) = rnd q) (nd : ND) :
    dumpND rnd (rounded rnd nd) = dumpND rnd nd := by
  simp [dumpND, rounded, List.map_map, Function.comp_def, hr]

theorem numLinesFrom_map {rnd : ℚ → ℚ} (hr : ∀ q, rnd (rnd q) = rnd q) (qs : List ℚ) :
    ∀ (i : Nat) (cur : Line), numLinesFrom rnd i cur (qs.map rnd) = numLinesFrom rnd i cur qs := by
  induction qs with
  | nil => intro i cur; rfl
  | cons q qs ih =>
    intro i cur
    simp only [List.map_cons, numLinesFrom, hr, ih]

theorem numLines_map {rnd : ℚ → ℚ} (hr : ∀ q, rnd (rnd q) = rnd q) (qs : List ℚ) :
    numLines rnd (qs.map rnd) = numLines rnd qs := by
  unfold numLines
  rw [numLinesFrom_map hr]

theorem temperatures_redump {rnd : ℚ → ℚ} (hr : ∀ q, rnd (rnd q) = rnd q) (x : StepList) :
    dumpTemperature rnd (temperaturesRes rnd x) = dumpTemperature rnd x := by
  simp only [dumpTemperature, temperaturesRes, StepList.steps, numLines_map hr, List.length_map, headLine]
  cases x.equal <;> rfl

theorem pressures_redump {rnd : ℚ → ℚ} (hr : ∀ q, rnd (rnd q) = rnd q) (x : StepList) :
    dumpPressure rnd (pressuresRes rnd x) = dumpPressure rnd x := by
  simp only [dumpPressure, pressuresRes, numLines_map hr]
  rfl

theorem reactions_redump {rnd : ℚ → ℚ} (hr : ∀ q, rnd (rnd q) = rnd q) (x : Reaction) :
    dumpReaction rnd (reactionsRes rnd x) = dumpReaction rnd x := by
  simp only [dumpReaction, reactionsRes, Reaction.restored, numLines_map hr, dumpND_rounded hr]
  rfl

theorem mixes_redump {rnd : ℚ → ℚ} (hr : ∀ q, rnd (rnd q) = rnd q) (x : Mix) :
    dumpMix rnd (mixesRes rnd x) = dumpMix rnd x := by
  simp [dumpMix, mixesRes, rounded, dumpIntMap, headLine, hr, Function.comp_def]

end Verif.Raw
