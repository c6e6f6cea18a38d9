import Verif.Raw.FileRedump

/-!
# A whole dump file: properties (C130)
-/

namespace Verif.Raw

open Verif.OMap Verif.NameDouble

/-- C130. For every selection of entities, every object that writes the file, every object that reads
it and whatever follows after `END`: if the blocks meet the conditions of C122 to C129, the reading of
the dumped text reports no error, stops at the end, and for every kind of entity and every number the
object then holds the entity as its own restart makes it if it was asked for and present; all others
are unchanged. The condition on the blocks is what is missing from the full claim. -/
theorem dump_file_restart_partial (rnd : ℚ → ℚ) (p : Picks) (m m0 : Maps) (hm : m.Loadable rnd p)
    (h0 : m0.Sorted) (rest : List Line) (hr : Rest rest) :
    ∃ m1, readFile (dumpFile rnd p m ++ rest) m0 = some (⟨m1, 0⟩, rest) ∧
      Restarts (dumpSolution rnd) readSolution p.solutions m.solutions m0.solutions m1.solutions ∧
      Restarts (dumpPP rnd) readPP p.pps m.pps m0.pps m1.pps ∧
      Restarts (dumpExchange rnd) readExchange p.exchanges m.exchanges m0.exchanges m1.exchanges ∧
      Restarts (dumpSurface rnd) readSurface p.surfaces m.surfaces m0.surfaces m1.surfaces ∧
      Restarts (dumpSSAssemblage rnd) readSSAssemblage p.sss m.sss m0.sss m1.sss ∧
      Restarts (dumpGasPhase rnd) readGasPhase p.gases m.gases m0.gases m1.gases ∧
      Restarts (dumpKinetics rnd) readKinetics p.kinetics m.kinetics m0.kinetics m1.kinetics ∧
      Restarts (dumpMix rnd) readMix p.mixes m.mixes m0.mixes m1.mixes ∧
      Restarts (dumpReaction rnd) readReaction p.reactions m.reactions m0.reactions m1.reactions ∧
      Restarts (dumpTemperature rnd) (readStepList temperatureOpts) p.temperatures m.temperatures m0.temperatures m1.temperatures ∧
      Restarts (dumpPressure rnd) (readStepList pressureOpts) p.pressures m.pressures m0.pressures m1.pressures :=
  ⟨_, readFile_dumpFile rnd p m m0 hm rest hr,
    restarts_loaded hm.solutions h0.solutions (solutions_read rnd),
    restarts_loaded hm.pps h0.pps (pps_read rnd),
    restarts_loaded hm.exchanges h0.exchanges (exchanges_read rnd),
    restarts_loaded hm.surfaces h0.surfaces (surfaces_read rnd),
    restarts_loaded hm.sss h0.sss (sss_read rnd),
    restarts_loaded hm.gases h0.gases (gases_read rnd),
    restarts_loaded hm.kinetics h0.kinetics (kinetics_read rnd),
    restarts_loaded hm.mixes h0.mixes (mixes_read rnd),
    restarts_loaded hm.reactions h0.reactions (reactions_read rnd),
    restarts_loaded hm.temperatures h0.temperatures (temperatures_read rnd),
    restarts_loaded hm.pressures h0.pressures (pressures_read rnd)⟩

/-- The further conditions under which the entities asked for are written as they were read: no element
is mistaken for part of another (C123), no phase is both `dissolve_only` and `precipitate_only`, the
components are in the order of their names, as `read_exchange` and `read_surface` leave them, and the
partial pressures are zero. -/
structure Maps.Tidy (p : Picks) (m : Maps) : Prop where
  solutions : ∀ e ∈ m.solutions, Picked p.solutions e.1 →
    ∀ k ∈ keys e.2.totals, ¬ Shadowed e.2.totals k
  pps : ∀ e ∈ m.pps, Picked p.pps e.1 →
    ∀ c ∈ e.2.comps, ¬(c.2.dissolveOnly = true ∧ c.2.precipitateOnly = true)
  exchanges : ∀ e ∈ m.exchanges, Picked p.exchanges e.1 →
    e.2.comps.Pairwise (fun a b => a.formula < b.formula)
  surfaces : ∀ e ∈ m.surfaces, Picked p.surfaces e.1 →
    e.2.comps.Pairwise (fun a b => a.formula < b.formula) ∧
    e.2.charges.Pairwise (fun a b => a.name < b.name)
  gases : ∀ e ∈ m.gases, Picked p.gases e.1 → ∀ c ∈ e.2.comps, c.p = 0

/-- An object that holds nothing. -/
def noMaps : Maps := ⟨[], [], [], [], [], [], [], [], [], [], []⟩

/-- C130. If rounding twice is the same as rounding once, a file read by a new object and dumped again
with the same selection is the same file, line by line: nothing is lost and nothing is written twice. -/
theorem dump_file_redump (rnd : ℚ → ℚ) (hr : ∀ q, rnd (rnd q) = rnd q) (hz : rnd 0 = 0) (p : Picks)
    (m : Maps) (hm : m.Loadable rnd p) (ht : m.Tidy p) :
    ∃ m1, readFile (dumpFile rnd p m) noMaps = some (⟨m1, 0⟩, []) ∧
      dumpFile rnd p m1 = dumpFile rnd p m := by
  refine ⟨loadedMaps rnd p m noMaps, ?_, ?_⟩
  · have := readFile_dumpFile rnd p m noMaps hm [] (Or.inl rfl)
    rwa [List.append_nil] at this
  have b0 : BlockEnd [] := Or.inl rfl
  have hs := redump_kind (dump := dumpSolution rnd) (res := solutionsRes rnd) hm.solutions
    (fun _ => rfl) (by
      intro x hx
      obtain ⟨h1, h2, h3⟩ := chosen_at hm.solutions x hx
      exact (solution_redump rnd hr x _ h2.1 h2.2 (ht.solutions _ h3 h1) [] b0
        (solutions_read rnd x h2 [] b0)).2)
  have hp := redump_kind (dump := dumpPP rnd) (res := ppsRes rnd) hm.pps (fun _ => rfl) (by
      intro x hx
      obtain ⟨h1, h2, h3⟩ := chosen_at hm.pps x hx
      exact pp_redump rnd hr x _ h2 (ht.pps _ h3 h1) [] b0 (pps_read rnd x h2 [] b0))
  have he := redump_kind (dump := dumpExchange rnd) (res := exchangesRes rnd) hm.exchanges
    (fun _ => rfl) (by
      intro x hx
      obtain ⟨h1, h2, h3⟩ := chosen_at hm.exchanges x hx
      exact exchange_redump rnd hr x _ h2 (ht.exchanges _ h3 h1) [] b0
        (exchanges_read rnd x h2 [] b0))
  have hu := redump_kind (dump := dumpSurface rnd) (res := surfacesRes rnd) hm.surfaces
    (fun _ => rfl) (by
      intro x hx
      obtain ⟨h1, h2, h3⟩ := chosen_at hm.surfaces x hx
      exact surface_redump rnd hr x _ h2 (ht.surfaces _ h3 h1).1 (ht.surfaces _ h3 h1).2 [] b0
        (surfaces_read rnd x h2 [] b0))
  have hss := redump_kind (dump := dumpSSAssemblage rnd) (res := sssRes rnd) hm.sss
    (fun _ => rfl) (by
      intro x hx
      obtain ⟨h1, h2, h3⟩ := chosen_at hm.sss x hx
      exact ss_redump rnd hr x _ h2 [] b0 (sss_read rnd x h2 [] b0))
  have hg := redump_kind (dump := dumpGasPhase rnd) (res := gasesRes rnd) hm.gases
    (fun _ => rfl) (by
      intro x hx
      obtain ⟨h1, h2, h3⟩ := chosen_at hm.gases x hx
      exact gas_redump rnd hr hz x _ h2 (ht.gases _ h3 h1) [] b0 (gases_read rnd x h2 [] b0))
  have hk := redump_kind (dump := dumpKinetics rnd) (res := kineticsRes rnd) hm.kinetics
    (fun _ => rfl) (by
      intro x hx
      obtain ⟨h1, h2, h3⟩ := chosen_at hm.kinetics x hx
      exact kinetics_redump rnd hr x _ h2 [] b0 (kinetics_read rnd x h2 [] b0))
  have hmx := redump_kind (dump := dumpMix rnd) (res := mixesRes rnd) hm.mixes
    (fun _ => rfl) (fun x _ => mixes_redump hr x)
  have hrx := redump_kind (dump := dumpReaction rnd) (res := reactionsRes rnd) hm.reactions
    (fun _ => rfl) (fun x _ => reactions_redump hr x)
  have htp := redump_kind (dump := dumpTemperature rnd) (res := temperaturesRes rnd) hm.temperatures
    (fun _ => rfl) (fun x _ => temperatures_redump hr x)
  have hpr := redump_kind (dump := dumpPressure rnd) (res := pressuresRes rnd) hm.pressures
    (fun _ => rfl) (fun x _ => pressures_redump hr x)
  unfold dumpFile
  simp only [loadedMaps, noMaps]
  rw [hs, hp, he, hu, hss, hg, hk, hmx, hrx, htp, hpr]

/-- Entities of most kinds; solution -2, with isotopes, is an internal one, and exchanger 8 is not
asked for. -/
def exampleMaps : Maps :=
  ⟨[(-2, { exampleSolution with head := ⟨-2, -2, []⟩ }), (3, { exampleSolution with isotopes := [] })],
   [(1, examplePP)], [(5, exampleExchange), (8, { exampleExchange with head := ⟨8, 8, []⟩ })],
   [(3, exampleSurface)], [(1, exampleSS)], [(2, exampleGas)], [(1, exampleKinetics)],
   [(6, ⟨⟨6, 6, []⟩, [(1, 1/3), (2, 2/3)]⟩)], [(exampleReaction.head.nUser, exampleReaction)],
   [(4, exampleTemps)], []⟩

def examplePicks : Picks :=
  ⟨⟨true, []⟩, ⟨true, []⟩, ⟨true, [5, 9]⟩, ⟨true, []⟩, ⟨true, []⟩, ⟨true, []⟩, ⟨true, []⟩, ⟨true, []⟩,
   ⟨true, []⟩, ⟨true, [4]⟩, ⟨false, []⟩⟩

/-- The conditions of `dump_file_restart_partial` can be met. -/
theorem exampleMaps_loadable : exampleMaps.Loadable (fun q => q) examplePicks := by
  have one : ∀ {β : Type} (head : β → Head) (P : β → Prop) (p : Pick) (n : Int) (x : β),
      n = (head x).nUser → P x → MapOk head P p [(n, x)] := by
    intro β head P p n x h1 h2
    refine ⟨by simp [Sorted], ?_⟩
    intro e he
    rw [List.mem_singleton] at he
    subst he
    exact ⟨h1, fun _ => h2⟩
  refine ⟨⟨by unfold Sorted; decide +kernel, ?_⟩, one _ _ _ _ _ rfl examplePP_loadable,
    ⟨by unfold Sorted; decide +kernel, ?_⟩, one _ _ _ _ _ rfl exampleSurface_loadable,
    one _ _ _ _ _ rfl exampleSS_loadable, one _ _ _ _ _ rfl exampleGas_loadable,
    one _ _ _ _ _ rfl exampleKinetics_loadable,
    one _ _ _ _ _ rfl (by unfold Sorted; decide +kernel),
    one _ _ _ _ _ rfl exampleReaction_loadable, one _ _ _ _ _ rfl trivial,
    ⟨by simp [exampleMaps, Sorted], by intro e he; cases he⟩⟩
  · intro e he
    simp only [exampleMaps, List.mem_cons, List.not_mem_nil, or_false] at he
    rcases he with rfl | rfl
    · exact ⟨rfl, fun h => absurd h.2.2 (by decide)⟩
    · have h := exampleSolution_loadable
      exact ⟨rfl, fun _ => ⟨⟨h.1, h.2, h.3, h.4, h.5, h.6⟩, rfl⟩⟩
  · intro e he
    simp only [exampleMaps, List.mem_cons, List.not_mem_nil, or_false] at he
    rcases he with rfl | rfl
    · exact ⟨rfl, fun _ => exampleExchange_loadable⟩
    · exact ⟨rfl, fun h => absurd h.2.1 (by decide)⟩

/-- The whole file of the example is read into an object that already has an exchanger 8. -/
example : ∃ m1, readFile (dumpFile (fun q => q) examplePicks exampleMaps ++ [[.word "END".toList]])
      { exampleMaps with solutions := [], kinetics := [] } = some (⟨m1, 0⟩, [[.word "END".toList]]) ∧
    (∃ y, find m1.solutions 3 = some y) ∧ find m1.solutions (-2) = none ∧
    find m1.exchanges 8 = some { exampleExchange with head := ⟨8, 8, []⟩ } := by
  have h := exampleMaps_loadable
  obtain ⟨m1, h1, h2, _, h4, _⟩ := dump_file_restart_partial (fun q => q) examplePicks exampleMaps
    { exampleMaps with solutions := [], kinetics := [] } h
    ⟨by simp [Sorted], h.2.1, h.3.1, h.4.1, h.5.1, h.6.1, by simp [Sorted], h.8.1, h.9.1, h.10.1,
      h.11.1⟩ [[.word "END".toList]] (Or.inr ⟨_, _, rfl⟩)
  refine ⟨m1, h1, ?_, ?_, ?_⟩
  · obtain ⟨y, hy, _⟩ := (h2 3).1 _ ⟨rfl, Or.inl rfl, by decide⟩ rfl
    exact ⟨y, hy⟩
  · exact (h2 (-2)).2 (Or.inl (fun hp => absurd hp.2.2 (by decide)))
  · exact (h4 8).2 (Or.inl (fun hp => absurd hp.2.1 (by decide)))

/-- The conditions of `dump_file_redump` can be met, here without a gas phase. -/
example : ({ exampleMaps with gases := [] } : Maps).Tidy { examplePicks with pps := ⟨false, []⟩ } := by
  refine ⟨?_, fun e _ h => absurd h.1 (by decide), ?_, ?_, by intro e he; cases he⟩
  · intro e he hp k hk
    simp only [exampleMaps, List.mem_cons, List.not_mem_nil, or_false] at he
    rcases he with rfl | rfl
    · exact absurd hp.2.2 (by decide)
    · rintro ⟨c, t, h1, h2, h3⟩
      simp only [exampleSolution, keys, List.map_cons, List.map_nil, List.mem_cons, List.not_mem_nil,
        or_false] at hk h3
      rcases hk with rfl | rfl | rfl | rfl
      · exact h1 (by decide)
      · exact h1 (by decide)
      · exact h1 (by decide)
      · simp at h3
  · intro e he _
    simp only [exampleMaps, List.mem_cons, List.not_mem_nil, or_false] at he
    rcases he with rfl | rfl <;> decide +kernel
  · intro e he _
    simp only [exampleMaps, List.mem_cons, List.not_mem_nil, or_false] at he
    subst he
    constructor <;> decide +kernel

end Verif.Raw
