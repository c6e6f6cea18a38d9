import Verif.CellRun.Slots

/-! # Helper lemmas: one step of one cell -/

namespace Verif.CellRun

variable {D : Type}

/-- Cell `i` of content `c` is in use. -/
structure Ready (u : Use) (c : Cell D) (i : Int) : Prop where
  inn : ∀ k, k ≠ .solution → u.inn k = (c k).isSome
  num : ∀ k, (k = .solution ∨ (c k).isSome = true) → u.num k = i
  sol : c .mix = none → u.inn .solution = true
  water : (c .mix).isSome = true ∨ (c .solution).isSome = true

/-- Results go to number `j`. -/
structure SaveTo (v : Save) (c : Cell D) (j : Int) : Prop where
  sol : v.on .solution = true
  on : ∀ k, k.kept = true → k ≠ .solution → v.on k = (c k).isSome
  num : ∀ k, k.kept = true → v.on k = true → v.num k = j
  last : ∀ k, k.kept = true → v.on k = true → v.last k = j

/-- The slots of number -2 hold what the next step of the cell starts from. -/
structure Slot (m : Maps D) (c0 c : Cell D) (fresh : Bool) : Prop where
  part : ∀ k, k ≠ .solution → k ≠ .mix → (c0 k).isSome = true → m k (-2) = c k
  some : ∀ k, k ≠ .solution → k ≠ .mix → (c k).isSome = (c0 k).isSome
  mix : c .mix = c0 .mix
  mixSlot : fresh = true → (c0 .mix).isSome = true → m .mix (-2) = c0 .mix
  sol : (fresh = false ∨ c0 .mix = none) → m .solution (-2) = c .solution ∧
    (c .solution).isSome = true

theorem setAdvection_ready (m : Maps D) (u : Use) (v : Save) (i : Int) (h : ¬ Skipped m i) :
    ∃ u' v', setAdvection m u v i = some (u', v') ∧ Ready u' (cellAt m i) i ∧
      SaveTo v' (cellAt m i) i := by
  have hw : (m .mix i).isSome = true ∨ (m .solution i).isSome = true := by
    unfold Skipped at h
    cases h1 : m .mix i <;> cases h2 : m .solution i <;> simp_all
  refine ⟨_, _, by rw [setAdvection, if_pos (by simpa using hw)], ?_, ?_⟩
  · refine ⟨?_, ?_, ?_, hw⟩
    · intro k hk; cases k <;> simp_all [cellAt]
    · intro k hk; cases k <;> simp_all [cellAt]
    · intro hm
      have hm' : m .mix i = none := hm
      simp [hm']
  · refine ⟨rfl, ?_, ?_, ?_⟩
    · intro k hk hs; cases k <;> simp_all [cellAt, Kind.kept, Kind.saved]
    · intro k hk hv; cases k <;> simp_all [Kind.kept, Kind.saved]
    · intro k hk hv; cases k <;> simp_all [Kind.kept, Kind.saved]

theorem copySave_to (u : Use) (v : Save) (c : Cell D) (i : Int) (h : Ready u c i) :
    SaveTo (copySave u v) c (-2) := by
  refine ⟨rfl, ?_, ?_, ?_⟩
  · intro k hk hs
    have := h.inn k hs
    cases k <;> simp_all [copySave, Kind.kept, Kind.saved]
  · intro k hk hv; cases k <;> simp_all [copySave, Kind.kept, Kind.saved]
  · intro k hk hv; cases k <;> simp_all [copySave, Kind.kept, Kind.saved]

theorem copyMaps_slot (m : Maps D) (u : Use) (c : Cell D) (i : Int) (h : Ready u c i)
    (hm : ∀ k, m k i = c k) : Slot (copyMaps m u) c c true := by
  refine ⟨?_, fun _ _ _ => rfl, rfl, ?_, ?_⟩
  · intro k hs hx hk
    rw [copyMaps_apply, if_pos ⟨by rw [h.inn k hs, hk], rfl⟩, h.num k (.inr hk), hm]
    obtain ⟨d, hd⟩ := Option.isSome_iff_exists.1 hk
    simp [hd]
  · intro _ hk
    rw [copyMaps_apply, if_pos ⟨by rw [h.inn _ (by decide), hk], rfl⟩, h.num _ (.inr hk), hm]
    obtain ⟨d, hd⟩ := Option.isSome_iff_exists.1 hk
    simp [hd]
  · intro hx
    have hx : c .mix = none := by simpa using hx
    have hs : (c .solution).isSome = true := by
      have := h.water
      simpa [hx] using this
    refine ⟨?_, hs⟩
    rw [copyMaps_apply, if_pos ⟨h.sol hx, rfl⟩, h.num _ (.inl rfl), hm]
    obtain ⟨d, hd⟩ := Option.isSome_iff_exists.1 hs
    simp [hd]

theorem copyMaps_same (m : Maps D) (u : Use) (k : Kind) (n : Int) (hn : n ≠ -2) :
    copyMaps m u k n = m k n := by
  rw [copyMaps_apply, if_neg (fun h => hn h.2)]

theorem kinTime_eq (E : Engine D) (O : Opts) (m : Maps D) (u : Use) (n s : Nat) (c0 c : Cell D)
    (i : Int) (fresh : Bool) (hu : Ready u c0 i) (h : Slot m c0 c fresh) :
    kinTime E O m u n s = some (spell E O c n s) := by
  unfold kinTime spell
  have hk := hu.inn .kinetics (by decide)
  have hs := h.some .kinetics (by decide) (by decide)
  have hp := h.part .kinetics (by decide) (by decide)
  cases hc : c .kinetics with
  | none =>
    have : u.inn .kinetics = false := by rw [hk, ← hs, hc]; rfl
    simp [this]
  | some d =>
    have h0 : (c0 .kinetics).isSome = true := by rw [← hs, hc]; rfl
    rw [if_pos (by rw [hk, h0])]
    rw [hp h0, hc]
    cases O.step <;> cases O.incr <;> simp

theorem setReaction_eq (E : Engine D) (m : Maps D) (u : Use) (c0 c : Cell D) (i : Int)
    (fresh : Bool) (sols : Int → Option D) (hu : Ready u c0 i) (h : Slot m c0 c fresh)
    (hs : ∀ d, c0 .mix = some d → ∀ n ∈ E.named d, m .solution n = sols n) :
    ∃ w, Water E sols c fresh w ∧ setReaction E m u fresh = some (w, reactants c) := by
  have hall : ([Kind.pp, .reaction, .exchange, .surface, .temperature, .pressure, .gas, .ss,
      .kinetics].all fun k => !u.inn k || (m k (-2)).isSome) = true := by
    rw [List.all_eq_true]
    intro k hk
    have hk1 : k ≠ .solution ∧ k ≠ .mix := by
      constructor <;> (rintro rfl; revert hk; decide)
    cases h0 : (c0 k).isSome with
    | false => rw [hu.inn k hk1.1, h0]; rfl
    | true => rw [h.part k hk1.1 hk1.2 h0, h.some k hk1.1 hk1.2, h0]; simp
  have hpart : (fun k => if k ∈ [Kind.pp, .reaction, .exchange, .surface, .temperature, .pressure,
      .gas, .ss, .kinetics] ∧ u.inn k = true then m k (-2) else none) = reactants c := by
    funext k
    by_cases hk : k = .solution ∨ k = .mix
    · rcases hk with rfl | rfl <;> simp [reactants]
    · have hk1 : k ≠ .solution := fun e => hk (.inl e)
      have hk2 : k ≠ .mix := fun e => hk (.inr e)
      have hr : reactants c k = c k := by cases k <;> simp_all [reactants]
      have hin : k ∈ [Kind.pp, .reaction, .exchange, .surface, .temperature, .pressure,
        .gas, .ss, .kinetics] := by cases k <;> simp_all
      rw [hr]
      cases h0 : (c0 k).isSome with
      | true => rw [if_pos ⟨hin, by rw [hu.inn k hk1, h0]⟩, h.part k hk1 hk2 h0]
      | false =>
        rw [if_neg (fun hh => by rw [hu.inn k hk1, h0] at hh; exact absurd hh.2 (by decide))]
        have := h.some k hk1 hk2
        rw [h0] at this
        exact (Option.isSome_eq_false_iff.1 this |> Option.isNone_iff_eq_none.1).symm
  unfold setReaction
  dsimp only
  rw [if_pos hall, hpart]
  have hmi := hu.inn .mix (by decide)
  cases hf : fresh with
  | true =>
    cases hx : c0 .mix with
    | some d =>
      refine ⟨_, Water.mix d rfl (by rw [h.mix, hx]), ?_⟩
      rw [if_pos (by rw [hmi, hx]; rfl), h.mixSlot hf (by rw [hx]; rfl), hx]
      have : (E.named d).map (m .solution) = (E.named d).map sols :=
        List.map_congr_left (hs d hx)
      simp [this]
    | none =>
      obtain ⟨h1, h2⟩ := h.sol (.inr hx)
      obtain ⟨d, hd⟩ := Option.isSome_iff_exists.1 h2
      refine ⟨_, Water.solution d (.inr (by rw [h.mix, hx])) hd, ?_⟩
      rw [if_neg (by rw [hmi, hx]; simp), h1, hd]
      rfl
  | false =>
    obtain ⟨h1, h2⟩ := h.sol (.inl hf)
    obtain ⟨d, hd⟩ := Option.isSome_iff_exists.1 h2
    refine ⟨_, Water.solution d (.inl rfl) hd, ?_⟩
    rw [if_neg (by simp), h1, hd]
    rfl

theorem scratch_same (m : Maps D) (o : Output D) (k : Kind) (n : Int) (h1 : n ≠ -1)
    (h2 : n ≠ -2) : scratch m o k n = m k n := by
  simp [scratch, h1, h2]

theorem scratch_two (m : Maps D) (o : Output D) (k : Kind) :
    scratch m o k (-2) = (o.slot2 k).or (m k (-2)) := by
  simp [scratch]

theorem SaveTo.ends {v : Save} {c : Cell D} {j : Int} (h : SaveTo v c j) :
    ∀ k, k.kept = true → v.on k = true → v.last k = v.num k :=
  fun k hk hv => (h.last k hk hv).trans (h.num k hk hv).symm

theorem saver_skips (m : Maps D) (u : Use) (v : Save) (o : Output D) (k : Kind) (n : Int)
    (h : ∀ k, k.kept = true → v.on k = true → v.last k = v.num k) (hk : k.kept = false) :
    saver m u v o k n = m k n := by
  rw [saver_apply _ _ _ _ _ _ h]
  split
  · cases k <;> simp_all [Kind.kept, Kind.saved]
  · rfl

/-- Saving to -2 after a step: the slots hold what the step made of the cell. -/
theorem save_slot (m : Maps D) (u : Use) (v : Save) (o : Output D) (c0 c : Cell D) (i : Int)
    (fresh : Bool) (hu : Ready u c0 i) (hv : SaveTo v c0 (-2)) (h : Slot m c0 c fresh) :
    Slot (saver (scratch m o) u v o) c0 (absorb c o) false := by
  have hsome : ∀ k, k ≠ .solution → k ≠ .mix → (absorb c o k).isSome = (c0 k).isSome := by
    intro k h1 h2
    rw [← h.some k h1 h2]
    cases k <;> simp_all [absorb]
  refine ⟨?_, hsome, h.mix, by simp, ?_⟩
  · intro k h1 h2 h0
    have hp := h.part k h1 h2 h0
    have hc : (c k).isSome = true := by rw [h.some k h1 h2, h0]
    obtain ⟨d, hd⟩ := Option.isSome_iff_exists.1 hc
    have hin : u.inn k = true := by rw [hu.inn k h1, h0]
    rw [saver_apply _ _ _ _ _ _ hv.ends]
    by_cases hk : k.kept = true
    · have hon : v.on k = true := by rw [hv.on k hk h1, h0]
      rw [if_pos ⟨hon, (hv.num k hk hon).symm⟩]
      cases k
      case kinetics =>
        simp only [hin, if_true, scratch_two, hp, hd, absorb]
        cases o.slot2 .kinetics <;> rfl
      all_goals simp_all [absorb, Kind.kept, Kind.saved]
    · rw [← saver_apply _ _ _ _ _ _ hv.ends, saver_skips _ _ _ _ _ _ hv.ends (by simpa using hk),
        scratch_two, hp, hd]
      have ha : absorb c o k = (c k).map fun d => (o.slot2 k).getD d := by
        cases k <;> simp_all [absorb, Kind.kept, Kind.saved]
      rw [ha, hd]
      cases o.slot2 k <;> rfl
  · intro _
    refine ⟨?_, rfl⟩
    rw [saver_apply _ _ _ _ _ _ hv.ends,
      if_pos ⟨hv.sol, (hv.num .solution (by decide) hv.sol).symm⟩]
    rfl

/-- Saving to a number changes that number only. -/
theorem save_same (m : Maps D) (u : Use) (v : Save) (o : Output D) (c0 : Cell D) (j : Int)
    (hv : SaveTo v c0 j) (k : Kind) (n : Int) (hn : n ≠ j) : saver m u v o k n = m k n := by
  rw [saver_apply _ _ _ _ _ _ hv.ends]
  by_cases hk : k.kept = true
  · rw [if_neg]
    rintro ⟨h1, h2⟩
    exact hn (h2.trans (hv.num k hk h1))
  · split
    · cases k <;> simp_all [Kind.kept, Kind.saved]
    · rfl

/-- The kinetics at -2 stay when results are saved there. -/
theorem save_kinetics (m : Maps D) (u : Use) (v : Save) (o : Output D) (c0 : Cell D)
    (hv : SaveTo v c0 (-2)) : saver m u v o .kinetics (-2) = m .kinetics (-2) := by
  rw [saver_apply _ _ _ _ _ _ hv.ends]
  split
  · dsimp only
    split
    · cases m .kinetics (-2) <;> rfl
    · rfl
  · rfl

end Verif.CellRun
