import Verif.Raw.FileSpec

/-!
# A whole dump file: reading each kind of block
-/

namespace Verif.Raw

open Verif.OMap Verif.NameDouble

/-- What `dumpSolution` and its reader make of an entity. -/
def solutionsRes (rnd : ℚ → ℚ) (x : Solution) : Solution :=
  Solution.restored rnd ⟨x.head.nUser, x.head.nUser, x.head.desc⟩ x

theorem solutions_read (rnd : ℚ → ℚ) : ∀ x : Solution, (fun x => x.Loadable ∧ x.isotopes = []) x → ∀ ls, BlockEnd ls →
    readSolution (dumpSolution rnd x ++ ls) = (solutionsRes rnd x, 0, ls) := by
  rintro x ⟨hx, hi⟩ ls he
  have := readSolution_dump rnd x ls hx.totals.2 hx.activities hx.gammas hx.species hx.logGamma
      hx.logMolal he
  rw [hi] at this
  exact this

theorem solutions_headed (rnd : ℚ → ℚ) (x : Solution) : Headed "SOLUTION_RAW" (dumpSolution rnd x) :=
  ⟨(headLine "SOLUTION_RAW" x.head).tail, (dumpSolution rnd x).tail, by simp [dumpSolution, headLine]⟩

theorem solutions_blocks {rnd : ℚ → ℚ} {p : Pick} {m : SMap Int Solution}
    (hm : MapOk Solution.head (fun x => x.Loadable ∧ x.isotopes = []) p m) {ls : List Line} (he : BlockEnd ls)
    (s : FileState) (f : Nat)
    (hf : ((chosen Solution.head p m).flatMap (dumpSolution rnd) ++ ls).length ≤ f) :
    ∃ f', ls.length ≤ f' ∧ readBlocks f ((chosen Solution.head p m).flatMap (dumpSolution rnd) ++ ls) s
      = readBlocks f' ls ⟨{ s.maps with solutions := loaded Solution.head (solutionsRes rnd) p m s.maps.solutions },
          s.errs⟩ :=
  readBlocks_kind (kw := "SOLUTION_RAW") (by decide +kernel) (dumpSolution rnd) (solutions_headed rnd)
    readSolution Solution.head Maps.solutions (fun t m => { m with solutions := t }) (fun _ _ => rfl)
    (fun _ _ _ => rfl) (fun _ => rfl) (fun _ _ _ => rfl) (solutionsRes rnd) (fun _ => rfl)
    (chosen Solution.head p m) (fun x hx => solutions_read rnd x (chosen_ok hm x hx)) he s f hf

theorem solutions_blockEnd (rnd : ℚ → ℚ) (xs : List Solution) {ls : List Line} (he : BlockEnd ls) :
    BlockEnd (xs.flatMap (dumpSolution rnd) ++ ls) :=
  blockEnd_flatMap (kw := "SOLUTION_RAW") (by decide +kernel) (dumpSolution rnd) (solutions_headed rnd) xs he

/-- What `dumpPP` and its reader make of an entity. -/
def ppsRes (rnd : ℚ → ℚ) (x : PPAssemblage) : PPAssemblage :=
  PPAssemblage.restored rnd ⟨x.head.nUser, x.head.nUser, x.head.desc⟩ x

theorem pps_read (rnd : ℚ → ℚ) : ∀ x : PPAssemblage, PPAssemblage.Loadable x → ∀ ls, BlockEnd ls →
    readPP (dumpPP rnd x ++ ls) = (ppsRes rnd x, 0, ls) := by
  exact fun x hx ls he => readPP_dump rnd x ls hx.comps hx.names hx.sorted hx.eltList hx.totals he

theorem pps_headed (rnd : ℚ → ℚ) (x : PPAssemblage) : Headed "EQUILIBRIUM_PHASES_RAW" (dumpPP rnd x) :=
  ⟨(headLine "EQUILIBRIUM_PHASES_RAW" x.head).tail, (dumpPP rnd x).tail, by simp [dumpPP, headLine]⟩

theorem pps_blocks {rnd : ℚ → ℚ} {p : Pick} {m : SMap Int PPAssemblage}
    (hm : MapOk PPAssemblage.head PPAssemblage.Loadable p m) {ls : List Line} (he : BlockEnd ls)
    (s : FileState) (f : Nat)
    (hf : ((chosen PPAssemblage.head p m).flatMap (dumpPP rnd) ++ ls).length ≤ f) :
    ∃ f', ls.length ≤ f' ∧ readBlocks f ((chosen PPAssemblage.head p m).flatMap (dumpPP rnd) ++ ls) s
      = readBlocks f' ls ⟨{ s.maps with pps := loaded PPAssemblage.head (ppsRes rnd) p m s.maps.pps },
          s.errs⟩ :=
  readBlocks_kind (kw := "EQUILIBRIUM_PHASES_RAW") (by decide +kernel) (dumpPP rnd) (pps_headed rnd)
    readPP PPAssemblage.head Maps.pps (fun t m => { m with pps := t }) (fun _ _ => rfl)
    (fun _ _ _ => rfl) (fun _ => rfl) (fun _ _ _ => rfl) (ppsRes rnd) (fun _ => rfl)
    (chosen PPAssemblage.head p m) (fun x hx => pps_read rnd x (chosen_ok hm x hx)) he s f hf

theorem pps_blockEnd (rnd : ℚ → ℚ) (xs : List PPAssemblage) {ls : List Line} (he : BlockEnd ls) :
    BlockEnd (xs.flatMap (dumpPP rnd) ++ ls) :=
  blockEnd_flatMap (kw := "EQUILIBRIUM_PHASES_RAW") (by decide +kernel) (dumpPP rnd) (pps_headed rnd) xs he

/-- What `dumpExchange` and its reader make of an entity. -/
def exchangesRes (rnd : ℚ → ℚ) (x : Exchange) : Exchange :=
  { x with
    head := ⟨x.head.nUser, x.head.nUser, x.head.desc⟩
    comps := sortComps (x.comps.map (ExchComp.rounded rnd))
    newDef := false
    solEq := false }

theorem exchanges_read (rnd : ℚ → ℚ) : ∀ x : Exchange, Exchange.Loadable x → ∀ ls, BlockEnd ls →
    readExchange (dumpExchange rnd x ++ ls) = (exchangesRes rnd x, 0, ls) := by
  exact fun x hx ls he => readExchange_dump rnd x ls hx.lists hx.names hx.work he

theorem exchanges_headed (rnd : ℚ → ℚ) (x : Exchange) : Headed "EXCHANGE_RAW" (dumpExchange rnd x) :=
  ⟨(headLine "EXCHANGE_RAW" x.head).tail, (dumpExchange rnd x).tail, by simp [dumpExchange, headLine]⟩

theorem exchanges_blocks {rnd : ℚ → ℚ} {p : Pick} {m : SMap Int Exchange}
    (hm : MapOk Exchange.head Exchange.Loadable p m) {ls : List Line} (he : BlockEnd ls)
    (s : FileState) (f : Nat)
    (hf : ((chosen Exchange.head p m).flatMap (dumpExchange rnd) ++ ls).length ≤ f) :
    ∃ f', ls.length ≤ f' ∧ readBlocks f ((chosen Exchange.head p m).flatMap (dumpExchange rnd) ++ ls) s
      = readBlocks f' ls ⟨{ s.maps with exchanges := loaded Exchange.head (exchangesRes rnd) p m s.maps.exchanges },
          s.errs⟩ :=
  readBlocks_kind (kw := "EXCHANGE_RAW") (by decide +kernel) (dumpExchange rnd) (exchanges_headed rnd)
    readExchange Exchange.head Maps.exchanges (fun t m => { m with exchanges := t }) (fun _ _ => rfl)
    (fun _ _ _ => rfl) (fun _ => rfl) (fun _ _ _ => rfl) (exchangesRes rnd) (fun _ => rfl)
    (chosen Exchange.head p m) (fun x hx => exchanges_read rnd x (chosen_ok hm x hx)) he s f hf

theorem exchanges_blockEnd (rnd : ℚ → ℚ) (xs : List Exchange) {ls : List Line} (he : BlockEnd ls) :
    BlockEnd (xs.flatMap (dumpExchange rnd) ++ ls) :=
  blockEnd_flatMap (kw := "EXCHANGE_RAW") (by decide +kernel) (dumpExchange rnd) (exchanges_headed rnd) xs he

/-- What `dumpSurface` and its reader make of an entity. -/
def surfacesRes (rnd : ℚ → ℚ) (x : Surface) : Surface :=
  Surface.restored rnd ⟨x.head.nUser, x.head.nUser, x.head.desc⟩ x

theorem surfaces_read (rnd : ℚ → ℚ) : ∀ x : Surface, (Surface.Loadable rnd) x → ∀ ls, BlockEnd ls →
    readSurface (dumpSurface rnd x ++ ls) = (surfacesRes rnd x, 0, ls) := by
  exact fun x hx ls he => hx.read ls he

theorem surfaces_headed (rnd : ℚ → ℚ) (x : Surface) : Headed "SURFACE_RAW" (dumpSurface rnd x) :=
  ⟨(headLine "SURFACE_RAW" x.head).tail, (dumpSurface rnd x).tail, by simp [dumpSurface, headLine]⟩

theorem surfaces_blocks {rnd : ℚ → ℚ} {p : Pick} {m : SMap Int Surface}
    (hm : MapOk Surface.head (Surface.Loadable rnd) p m) {ls : List Line} (he : BlockEnd ls)
    (s : FileState) (f : Nat)
    (hf : ((chosen Surface.head p m).flatMap (dumpSurface rnd) ++ ls).length ≤ f) :
    ∃ f', ls.length ≤ f' ∧ readBlocks f ((chosen Surface.head p m).flatMap (dumpSurface rnd) ++ ls) s
      = readBlocks f' ls ⟨{ s.maps with surfaces := loaded Surface.head (surfacesRes rnd) p m s.maps.surfaces },
          s.errs⟩ :=
  readBlocks_kind (kw := "SURFACE_RAW") (by decide +kernel) (dumpSurface rnd) (surfaces_headed rnd)
    readSurface Surface.head Maps.surfaces (fun t m => { m with surfaces := t }) (fun _ _ => rfl)
    (fun _ _ _ => rfl) (fun _ => rfl) (fun _ _ _ => rfl) (surfacesRes rnd) (fun _ => rfl)
    (chosen Surface.head p m) (fun x hx => surfaces_read rnd x (chosen_ok hm x hx)) he s f hf

theorem surfaces_blockEnd (rnd : ℚ → ℚ) (xs : List Surface) {ls : List Line} (he : BlockEnd ls) :
    BlockEnd (xs.flatMap (dumpSurface rnd) ++ ls) :=
  blockEnd_flatMap (kw := "SURFACE_RAW") (by decide +kernel) (dumpSurface rnd) (surfaces_headed rnd) xs he

/-- What `dumpSSAssemblage` and its reader make of an entity. -/
def sssRes (rnd : ℚ → ℚ) (x : SSAssemblage) : SSAssemblage :=
  SSAssemblage.restored rnd ⟨x.head.nUser, x.head.nUser, x.head.desc⟩ x

theorem sss_read (rnd : ℚ → ℚ) : ∀ x : SSAssemblage, SSAssemblage.Loadable x → ∀ ls, BlockEnd ls →
    readSSAssemblage (dumpSSAssemblage rnd x ++ ls) = (sssRes rnd x, 0, ls) := by
  exact fun x hx ls he => readSSAssemblage_dump rnd x ls hx.comps hx.sorted hx.totals he

theorem sss_headed (rnd : ℚ → ℚ) (x : SSAssemblage) : Headed "SOLID_SOLUTIONS_RAW" (dumpSSAssemblage rnd x) :=
  ⟨(headLine "SOLID_SOLUTIONS_RAW" x.head).tail, (dumpSSAssemblage rnd x).tail, by simp [dumpSSAssemblage, headLine]⟩

theorem sss_blocks {rnd : ℚ → ℚ} {p : Pick} {m : SMap Int SSAssemblage}
    (hm : MapOk SSAssemblage.head SSAssemblage.Loadable p m) {ls : List Line} (he : BlockEnd ls)
    (s : FileState) (f : Nat)
    (hf : ((chosen SSAssemblage.head p m).flatMap (dumpSSAssemblage rnd) ++ ls).length ≤ f) :
    ∃ f', ls.length ≤ f' ∧ readBlocks f ((chosen SSAssemblage.head p m).flatMap (dumpSSAssemblage rnd) ++ ls) s
      = readBlocks f' ls ⟨{ s.maps with sss := loaded SSAssemblage.head (sssRes rnd) p m s.maps.sss },
          s.errs⟩ :=
  readBlocks_kind (kw := "SOLID_SOLUTIONS_RAW") (by decide +kernel) (dumpSSAssemblage rnd) (sss_headed rnd)
    readSSAssemblage SSAssemblage.head Maps.sss (fun t m => { m with sss := t }) (fun _ _ => rfl)
    (fun _ _ _ => rfl) (fun _ => rfl) (fun _ _ _ => rfl) (sssRes rnd) (fun _ => rfl)
    (chosen SSAssemblage.head p m) (fun x hx => sss_read rnd x (chosen_ok hm x hx)) he s f hf

theorem sss_blockEnd (rnd : ℚ → ℚ) (xs : List SSAssemblage) {ls : List Line} (he : BlockEnd ls) :
    BlockEnd (xs.flatMap (dumpSSAssemblage rnd) ++ ls) :=
  blockEnd_flatMap (kw := "SOLID_SOLUTIONS_RAW") (by decide +kernel) (dumpSSAssemblage rnd) (sss_headed rnd) xs he

/-- What `dumpGasPhase` and its reader make of an entity. -/
def gasesRes (rnd : ℚ → ℚ) (x : GasPhase) : GasPhase :=
  GasPhase.restored rnd ⟨x.head.nUser, x.head.nUser, x.head.desc⟩ x

theorem gases_read (rnd : ℚ → ℚ) : ∀ x : GasPhase, GasPhase.Loadable x → ∀ ls, BlockEnd ls →
    readGasPhase (dumpGasPhase rnd x ++ ls) = (gasesRes rnd x, 0, ls) := by
  exact fun x hx ls he => readGasPhase_dump rnd x ls hx.names hx.totals he

theorem gases_headed (rnd : ℚ → ℚ) (x : GasPhase) : Headed "GAS_PHASE_RAW" (dumpGasPhase rnd x) :=
  ⟨(headLine "GAS_PHASE_RAW" x.head).tail, (dumpGasPhase rnd x).tail, by simp [dumpGasPhase, headLine]⟩

theorem gases_blocks {rnd : ℚ → ℚ} {p : Pick} {m : SMap Int GasPhase}
    (hm : MapOk GasPhase.head GasPhase.Loadable p m) {ls : List Line} (he : BlockEnd ls)
    (s : FileState) (f : Nat)
    (hf : ((chosen GasPhase.head p m).flatMap (dumpGasPhase rnd) ++ ls).length ≤ f) :
    ∃ f', ls.length ≤ f' ∧ readBlocks f ((chosen GasPhase.head p m).flatMap (dumpGasPhase rnd) ++ ls) s
      = readBlocks f' ls ⟨{ s.maps with gases := loaded GasPhase.head (gasesRes rnd) p m s.maps.gases },
          s.errs⟩ :=
  readBlocks_kind (kw := "GAS_PHASE_RAW") (by decide +kernel) (dumpGasPhase rnd) (gases_headed rnd)
    readGasPhase GasPhase.head Maps.gases (fun t m => { m with gases := t }) (fun _ _ => rfl)
    (fun _ _ _ => rfl) (fun _ => rfl) (fun _ _ _ => rfl) (gasesRes rnd) (fun _ => rfl)
    (chosen GasPhase.head p m) (fun x hx => gases_read rnd x (chosen_ok hm x hx)) he s f hf

theorem gases_blockEnd (rnd : ℚ → ℚ) (xs : List GasPhase) {ls : List Line} (he : BlockEnd ls) :
    BlockEnd (xs.flatMap (dumpGasPhase rnd) ++ ls) :=
  blockEnd_flatMap (kw := "GAS_PHASE_RAW") (by decide +kernel) (dumpGasPhase rnd) (gases_headed rnd) xs he

/-- What `dumpKinetics` and its reader make of an entity. -/
def kineticsRes (rnd : ℚ → ℚ) (x : Kinetics) : Kinetics :=
  Kinetics.restored rnd ⟨x.head.nUser, x.head.nUser, x.head.desc⟩ x

theorem kinetics_read (rnd : ℚ → ℚ) : ∀ x : Kinetics, Kinetics.Loadable x → ∀ ls, BlockEnd ls →
    readKinetics (dumpKinetics rnd x ++ ls) = (kineticsRes rnd x, 0, ls) := by
  exact fun x hx ls he => readKinetics_dump rnd x ls hx.lists hx.names hx.totals he

theorem kinetics_headed (rnd : ℚ → ℚ) (x : Kinetics) : Headed "KINETICS_RAW" (dumpKinetics rnd x) :=
  ⟨(headLine "KINETICS_RAW" x.head).tail, (dumpKinetics rnd x).tail, by simp [dumpKinetics, headLine]⟩

theorem kinetics_blocks {rnd : ℚ → ℚ} {p : Pick} {m : SMap Int Kinetics}
    (hm : MapOk Kinetics.head Kinetics.Loadable p m) {ls : List Line} (he : BlockEnd ls)
    (s : FileState) (f : Nat)
    (hf : ((chosen Kinetics.head p m).flatMap (dumpKinetics rnd) ++ ls).length ≤ f) :
    ∃ f', ls.length ≤ f' ∧ readBlocks f ((chosen Kinetics.head p m).flatMap (dumpKinetics rnd) ++ ls) s
      = readBlocks f' ls ⟨{ s.maps with kinetics := loaded Kinetics.head (kineticsRes rnd) p m s.maps.kinetics },
          s.errs⟩ :=
  readBlocks_kind (kw := "KINETICS_RAW") (by decide +kernel) (dumpKinetics rnd) (kinetics_headed rnd)
    readKinetics Kinetics.head Maps.kinetics (fun t m => { m with kinetics := t }) (fun _ _ => rfl)
    (fun _ _ _ => rfl) (fun _ => rfl) (fun _ _ _ => rfl) (kineticsRes rnd) (fun _ => rfl)
    (chosen Kinetics.head p m) (fun x hx => kinetics_read rnd x (chosen_ok hm x hx)) he s f hf

theorem kinetics_blockEnd (rnd : ℚ → ℚ) (xs : List Kinetics) {ls : List Line} (he : BlockEnd ls) :
    BlockEnd (xs.flatMap (dumpKinetics rnd) ++ ls) :=
  blockEnd_flatMap (kw := "KINETICS_RAW") (by decide +kernel) (dumpKinetics rnd) (kinetics_headed rnd) xs he

/-- What `dumpMix` and its reader make of an entity. -/
def mixesRes (rnd : ℚ → ℚ) (x : Mix) : Mix :=
  ⟨⟨x.head.nUser, x.head.nUser, x.head.desc⟩, rounded rnd x.comps⟩

theorem mixes_read (rnd : ℚ → ℚ) : ∀ x : Mix, (fun x => Sorted x.comps) x → ∀ ls, BlockEnd ls →
    readMix (dumpMix rnd x ++ ls) = (mixesRes rnd x, 0, ls) := by
  exact fun x hx ls he => readMix_dump rnd x ls hx he

theorem mixes_headed (rnd : ℚ → ℚ) (x : Mix) : Headed "MIX_RAW" (dumpMix rnd x) :=
  ⟨(headLine "MIX_RAW" x.head).tail, (dumpMix rnd x).tail, by simp [dumpMix, headLine]⟩

theorem mixes_blocks {rnd : ℚ → ℚ} {p : Pick} {m : SMap Int Mix}
    (hm : MapOk Mix.head (fun x => Sorted x.comps) p m) {ls : List Line} (he : BlockEnd ls)
    (s : FileState) (f : Nat)
    (hf : ((chosen Mix.head p m).flatMap (dumpMix rnd) ++ ls).length ≤ f) :
    ∃ f', ls.length ≤ f' ∧ readBlocks f ((chosen Mix.head p m).flatMap (dumpMix rnd) ++ ls) s
      = readBlocks f' ls ⟨{ s.maps with mixes := loaded Mix.head (mixesRes rnd) p m s.maps.mixes },
          s.errs⟩ :=
  readBlocks_kind (kw := "MIX_RAW") (by decide +kernel) (dumpMix rnd) (mixes_headed rnd)
    readMix Mix.head Maps.mixes (fun t m => { m with mixes := t }) (fun _ _ => rfl)
    (fun _ _ _ => rfl) (fun _ => rfl) (fun _ _ _ => rfl) (mixesRes rnd) (fun _ => rfl)
    (chosen Mix.head p m) (fun x hx => mixes_read rnd x (chosen_ok hm x hx)) he s f hf

theorem mixes_blockEnd (rnd : ℚ → ℚ) (xs : List Mix) {ls : List Line} (he : BlockEnd ls) :
    BlockEnd (xs.flatMap (dumpMix rnd) ++ ls) :=
  blockEnd_flatMap (kw := "MIX_RAW") (by decide +kernel) (dumpMix rnd) (mixes_headed rnd) xs he

/-- What `dumpReaction` and its reader make of an entity. -/
def reactionsRes (rnd : ℚ → ℚ) (x : Reaction) : Reaction :=
  Reaction.restored rnd ⟨x.head.nUser, x.head.nUser, x.head.desc⟩ x

theorem reactions_read (rnd : ℚ → ℚ) : ∀ x : Reaction, Reaction.Loadable x → ∀ ls, BlockEnd ls →
    readReaction (dumpReaction rnd x ++ ls) = (reactionsRes rnd x, 0, ls) := by
  exact fun x hx ls he => readReaction_dump rnd x ls hx.units hx.reactants hx.elements he

theorem reactions_headed (rnd : ℚ → ℚ) (x : Reaction) : Headed "REACTION_RAW" (dumpReaction rnd x) :=
  ⟨(headLine "REACTION_RAW" x.head).tail, (dumpReaction rnd x).tail, by simp [dumpReaction, headLine]⟩

theorem reactions_blocks {rnd : ℚ → ℚ} {p : Pick} {m : SMap Int Reaction}
    (hm : MapOk Reaction.head Reaction.Loadable p m) {ls : List Line} (he : BlockEnd ls)
    (s : FileState) (f : Nat)
    (hf : ((chosen Reaction.head p m).flatMap (dumpReaction rnd) ++ ls).length ≤ f) :
    ∃ f', ls.length ≤ f' ∧ readBlocks f ((chosen Reaction.head p m).flatMap (dumpReaction rnd) ++ ls) s
      = readBlocks f' ls ⟨{ s.maps with reactions := loaded Reaction.head (reactionsRes rnd) p m s.maps.reactions },
          s.errs⟩ :=
  readBlocks_kind (kw := "REACTION_RAW") (by decide +kernel) (dumpReaction rnd) (reactions_headed rnd)
    readReaction Reaction.head Maps.reactions (fun t m => { m with reactions := t }) (fun _ _ => rfl)
    (fun _ _ _ => rfl) (fun _ => rfl) (fun _ _ _ => rfl) (reactionsRes rnd) (fun _ => rfl)
    (chosen Reaction.head p m) (fun x hx => reactions_read rnd x (chosen_ok hm x hx)) he s f hf

theorem reactions_blockEnd (rnd : ℚ → ℚ) (xs : List Reaction) {ls : List Line} (he : BlockEnd ls) :
    BlockEnd (xs.flatMap (dumpReaction rnd) ++ ls) :=
  blockEnd_flatMap (kw := "REACTION_RAW") (by decide +kernel) (dumpReaction rnd) (reactions_headed rnd) xs he

/-- What `dumpTemperature` and its reader make of an entity. -/
def temperaturesRes (rnd : ℚ → ℚ) (x : StepList) : StepList :=
  ⟨⟨x.head.nUser, x.head.nUser, x.head.desc⟩, x.values.map rnd, x.steps, x.equal⟩

theorem temperatures_read (rnd : ℚ → ℚ) : ∀ x : StepList, (fun _ => True) x → ∀ ls, BlockEnd ls →
    (readStepList temperatureOpts) (dumpTemperature rnd x ++ ls) = (temperaturesRes rnd x, 0, ls) := by
  exact fun x _ ls he => readTemperature_dump rnd x ls he

theorem temperatures_headed (rnd : ℚ → ℚ) (x : StepList) : Headed "REACTION_TEMPERATURE_RAW" (dumpTemperature rnd x) :=
  ⟨(headLine "REACTION_TEMPERATURE_RAW" x.head).tail, (dumpTemperature rnd x).tail, by simp [dumpTemperature, headLine]⟩

theorem temperatures_blocks {rnd : ℚ → ℚ} {p : Pick} {m : SMap Int StepList}
    (hm : MapOk StepList.head (fun _ => True) p m) {ls : List Line} (he : BlockEnd ls)
    (s : FileState) (f : Nat)
    (hf : ((chosen StepList.head p m).flatMap (dumpTemperature rnd) ++ ls).length ≤ f) :
    ∃ f', ls.length ≤ f' ∧ readBlocks f ((chosen StepList.head p m).flatMap (dumpTemperature rnd) ++ ls) s
      = readBlocks f' ls ⟨{ s.maps with temperatures := loaded StepList.head (temperaturesRes rnd) p m s.maps.temperatures },
          s.errs⟩ :=
  readBlocks_kind (kw := "REACTION_TEMPERATURE_RAW") (by decide +kernel) (dumpTemperature rnd) (temperatures_headed rnd)
    (readStepList temperatureOpts) StepList.head Maps.temperatures (fun t m => { m with temperatures := t }) (fun _ _ => rfl)
    (fun _ _ _ => rfl) (fun _ => rfl) (fun _ _ _ => rfl) (temperaturesRes rnd) (fun _ => rfl)
    (chosen StepList.head p m) (fun x hx => temperatures_read rnd x (chosen_ok hm x hx)) he s f hf

theorem temperatures_blockEnd (rnd : ℚ → ℚ) (xs : List StepList) {ls : List Line} (he : BlockEnd ls) :
    BlockEnd (xs.flatMap (dumpTemperature rnd) ++ ls) :=
  blockEnd_flatMap (kw := "REACTION_TEMPERATURE_RAW") (by decide +kernel) (dumpTemperature rnd) (temperatures_headed rnd) xs he

/-- What `dumpPressure` and its reader make of an entity. -/
def pressuresRes (rnd : ℚ → ℚ) (x : StepList) : StepList :=
  ⟨⟨x.head.nUser, x.head.nUser, x.head.desc⟩, x.values.map rnd, x.count, x.equal⟩

theorem pressures_read (rnd : ℚ → ℚ) : ∀ x : StepList, (fun _ => True) x → ∀ ls, BlockEnd ls →
    (readStepList pressureOpts) (dumpPressure rnd x ++ ls) = (pressuresRes rnd x, 0, ls) := by
  exact fun x _ ls he => readPressure_dump rnd x ls he

theorem pressures_headed (rnd : ℚ → ℚ) (x : StepList) : Headed "REACTION_PRESSURE_RAW" (dumpPressure rnd x) :=
  ⟨(headLine "REACTION_PRESSURE_RAW" x.head).tail, (dumpPressure rnd x).tail, by simp [dumpPressure, headLine]⟩

theorem pressures_blocks {rnd : ℚ → ℚ} {p : Pick} {m : SMap Int StepList}
    (hm : MapOk StepList.head (fun _ => True) p m) {ls : List Line} (he : BlockEnd ls)
    (s : FileState) (f : Nat)
    (hf : ((chosen StepList.head p m).flatMap (dumpPressure rnd) ++ ls).length ≤ f) :
    ∃ f', ls.length ≤ f' ∧ readBlocks f ((chosen StepList.head p m).flatMap (dumpPressure rnd) ++ ls) s
      = readBlocks f' ls ⟨{ s.maps with pressures := loaded StepList.head (pressuresRes rnd) p m s.maps.pressures },
          s.errs⟩ :=
  readBlocks_kind (kw := "REACTION_PRESSURE_RAW") (by decide +kernel) (dumpPressure rnd) (pressures_headed rnd)
    (readStepList pressureOpts) StepList.head Maps.pressures (fun t m => { m with pressures := t }) (fun _ _ => rfl)
    (fun _ _ _ => rfl) (fun _ => rfl) (fun _ _ _ => rfl) (pressuresRes rnd) (fun _ => rfl)
    (chosen StepList.head p m) (fun x hx => pressures_read rnd x (chosen_ok hm x hx)) he s f hf

theorem pressures_blockEnd (rnd : ℚ → ℚ) (xs : List StepList) {ls : List Line} (he : BlockEnd ls) :
    BlockEnd (xs.flatMap (dumpPressure rnd) ++ ls) :=
  blockEnd_flatMap (kw := "REACTION_PRESSURE_RAW") (by decide +kernel) (dumpPressure rnd) (pressures_headed rnd) xs he

/-- All maps after the file was read. -/
def loadedMaps (rnd : ℚ → ℚ) (p : Picks) (m m0 : Maps) : Maps where
  solutions := loaded Solution.head (solutionsRes rnd) p.solutions m.solutions m0.solutions
  pps := loaded PPAssemblage.head (ppsRes rnd) p.pps m.pps m0.pps
  exchanges := loaded Exchange.head (exchangesRes rnd) p.exchanges m.exchanges m0.exchanges
  surfaces := loaded Surface.head (surfacesRes rnd) p.surfaces m.surfaces m0.surfaces
  sss := loaded SSAssemblage.head (sssRes rnd) p.sss m.sss m0.sss
  gases := loaded GasPhase.head (gasesRes rnd) p.gases m.gases m0.gases
  kinetics := loaded Kinetics.head (kineticsRes rnd) p.kinetics m.kinetics m0.kinetics
  mixes := loaded Mix.head (mixesRes rnd) p.mixes m.mixes m0.mixes
  reactions := loaded Reaction.head (reactionsRes rnd) p.reactions m.reactions m0.reactions
  temperatures := loaded StepList.head (temperaturesRes rnd) p.temperatures m.temperatures m0.temperatures
  pressures := loaded StepList.head (pressuresRes rnd) p.pressures m.pressures m0.pressures

theorem readFile_dumpFile (rnd : ℚ → ℚ) (p : Picks) (m m0 : Maps) (hm : m.Loadable rnd p)
    (rest : List Line) (hr : Rest rest) :
    readFile (dumpFile rnd p m ++ rest) m0 = some (⟨loadedMaps rnd p m m0, 0⟩, rest) := by
  have e11 := useLines_blockEnd rest
  have e10 := pressures_blockEnd rnd (chosen StepList.head p.pressures m.pressures) e11
  have e9 := temperatures_blockEnd rnd (chosen StepList.head p.temperatures m.temperatures) e10
  have e8 := reactions_blockEnd rnd (chosen Reaction.head p.reactions m.reactions) e9
  have e7 := mixes_blockEnd rnd (chosen Mix.head p.mixes m.mixes) e8
  have e6 := kinetics_blockEnd rnd (chosen Kinetics.head p.kinetics m.kinetics) e7
  have e5 := gases_blockEnd rnd (chosen GasPhase.head p.gases m.gases) e6
  have e4 := sss_blockEnd rnd (chosen SSAssemblage.head p.sss m.sss) e5
  have e3 := surfaces_blockEnd rnd (chosen Surface.head p.surfaces m.surfaces) e4
  have e2 := exchanges_blockEnd rnd (chosen Exchange.head p.exchanges m.exchanges) e3
  have e1 := pps_blockEnd rnd (chosen PPAssemblage.head p.pps m.pps) e2
  have e0 := solutions_blockEnd rnd (chosen Solution.head p.solutions m.solutions) e1
  unfold readFile
  generalize hf : (dumpFile rnd p m ++ rest).length = f
  have hf := hf.le
  unfold dumpFile at hf ⊢
  simp only [List.append_assoc] at hf ⊢
  obtain ⟨f0, l0, q0⟩ := solutions_blocks (rnd := rnd) hm.solutions e1
    ⟨m0, 0⟩ _ hf
  obtain ⟨f1, l1, q1⟩ := pps_blocks (rnd := rnd) hm.pps e2
    ⟨{ m0 with
        solutions := loaded Solution.head (solutionsRes rnd) p.solutions m.solutions m0.solutions }, 0⟩ _ l0
  obtain ⟨f2, l2, q2⟩ := exchanges_blocks (rnd := rnd) hm.exchanges e3
    ⟨{ m0 with
        solutions := loaded Solution.head (solutionsRes rnd) p.solutions m.solutions m0.solutions
        pps := loaded PPAssemblage.head (ppsRes rnd) p.pps m.pps m0.pps }, 0⟩ _ l1
  obtain ⟨f3, l3, q3⟩ := surfaces_blocks (rnd := rnd) hm.surfaces e4
    ⟨{ m0 with
        solutions := loaded Solution.head (solutionsRes rnd) p.solutions m.solutions m0.solutions
        pps := loaded PPAssemblage.head (ppsRes rnd) p.pps m.pps m0.pps
        exchanges := loaded Exchange.head (exchangesRes rnd) p.exchanges m.exchanges m0.exchanges }, 0⟩ _ l2
  obtain ⟨f4, l4, q4⟩ := sss_blocks (rnd := rnd) hm.sss e5
    ⟨{ m0 with
        solutions := loaded Solution.head (solutionsRes rnd) p.solutions m.solutions m0.solutions
        pps := loaded PPAssemblage.head (ppsRes rnd) p.pps m.pps m0.pps
        exchanges := loaded Exchange.head (exchangesRes rnd) p.exchanges m.exchanges m0.exchanges
        surfaces := loaded Surface.head (surfacesRes rnd) p.surfaces m.surfaces m0.surfaces }, 0⟩ _ l3
  obtain ⟨f5, l5, q5⟩ := gases_blocks (rnd := rnd) hm.gases e6
    ⟨{ m0 with
        solutions := loaded Solution.head (solutionsRes rnd) p.solutions m.solutions m0.solutions
        pps := loaded PPAssemblage.head (ppsRes rnd) p.pps m.pps m0.pps
        exchanges := loaded Exchange.head (exchangesRes rnd) p.exchanges m.exchanges m0.exchanges
        surfaces := loaded Surface.head (surfacesRes rnd) p.surfaces m.surfaces m0.surfaces
        sss := loaded SSAssemblage.head (sssRes rnd) p.sss m.sss m0.sss }, 0⟩ _ l4
  obtain ⟨f6, l6, q6⟩ := kinetics_blocks (rnd := rnd) hm.kinetics e7
    ⟨{ m0 with
        solutions := loaded Solution.head (solutionsRes rnd) p.solutions m.solutions m0.solutions
        pps := loaded PPAssemblage.head (ppsRes rnd) p.pps m.pps m0.pps
        exchanges := loaded Exchange.head (exchangesRes rnd) p.exchanges m.exchanges m0.exchanges
        surfaces := loaded Surface.head (surfacesRes rnd) p.surfaces m.surfaces m0.surfaces
        sss := loaded SSAssemblage.head (sssRes rnd) p.sss m.sss m0.sss
        gases := loaded GasPhase.head (gasesRes rnd) p.gases m.gases m0.gases }, 0⟩ _ l5
  obtain ⟨f7, l7, q7⟩ := mixes_blocks (rnd := rnd) hm.mixes e8
    ⟨{ m0 with
        solutions := loaded Solution.head (solutionsRes rnd) p.solutions m.solutions m0.solutions
        pps := loaded PPAssemblage.head (ppsRes rnd) p.pps m.pps m0.pps
        exchanges := loaded Exchange.head (exchangesRes rnd) p.exchanges m.exchanges m0.exchanges
        surfaces := loaded Surface.head (surfacesRes rnd) p.surfaces m.surfaces m0.surfaces
        sss := loaded SSAssemblage.head (sssRes rnd) p.sss m.sss m0.sss
        gases := loaded GasPhase.head (gasesRes rnd) p.gases m.gases m0.gases
        kinetics := loaded Kinetics.head (kineticsRes rnd) p.kinetics m.kinetics m0.kinetics }, 0⟩ _ l6
  obtain ⟨f8, l8, q8⟩ := reactions_blocks (rnd := rnd) hm.reactions e9
    ⟨{ m0 with
        solutions := loaded Solution.head (solutionsRes rnd) p.solutions m.solutions m0.solutions
        pps := loaded PPAssemblage.head (ppsRes rnd) p.pps m.pps m0.pps
        exchanges := loaded Exchange.head (exchangesRes rnd) p.exchanges m.exchanges m0.exchanges
        surfaces := loaded Surface.head (surfacesRes rnd) p.surfaces m.surfaces m0.surfaces
        sss := loaded SSAssemblage.head (sssRes rnd) p.sss m.sss m0.sss
        gases := loaded GasPhase.head (gasesRes rnd) p.gases m.gases m0.gases
        kinetics := loaded Kinetics.head (kineticsRes rnd) p.kinetics m.kinetics m0.kinetics
        mixes := loaded Mix.head (mixesRes rnd) p.mixes m.mixes m0.mixes }, 0⟩ _ l7
  obtain ⟨f9, l9, q9⟩ := temperatures_blocks (rnd := rnd) hm.temperatures e10
    ⟨{ m0 with
        solutions := loaded Solution.head (solutionsRes rnd) p.solutions m.solutions m0.solutions
        pps := loaded PPAssemblage.head (ppsRes rnd) p.pps m.pps m0.pps
        exchanges := loaded Exchange.head (exchangesRes rnd) p.exchanges m.exchanges m0.exchanges
        surfaces := loaded Surface.head (surfacesRes rnd) p.surfaces m.surfaces m0.surfaces
        sss := loaded SSAssemblage.head (sssRes rnd) p.sss m.sss m0.sss
        gases := loaded GasPhase.head (gasesRes rnd) p.gases m.gases m0.gases
        kinetics := loaded Kinetics.head (kineticsRes rnd) p.kinetics m.kinetics m0.kinetics
        mixes := loaded Mix.head (mixesRes rnd) p.mixes m.mixes m0.mixes
        reactions := loaded Reaction.head (reactionsRes rnd) p.reactions m.reactions m0.reactions }, 0⟩ _ l8
  obtain ⟨f10, l10, q10⟩ := pressures_blocks (rnd := rnd) hm.pressures e11
    ⟨{ m0 with
        solutions := loaded Solution.head (solutionsRes rnd) p.solutions m.solutions m0.solutions
        pps := loaded PPAssemblage.head (ppsRes rnd) p.pps m.pps m0.pps
        exchanges := loaded Exchange.head (exchangesRes rnd) p.exchanges m.exchanges m0.exchanges
        surfaces := loaded Surface.head (surfacesRes rnd) p.surfaces m.surfaces m0.surfaces
        sss := loaded SSAssemblage.head (sssRes rnd) p.sss m.sss m0.sss
        gases := loaded GasPhase.head (gasesRes rnd) p.gases m.gases m0.gases
        kinetics := loaded Kinetics.head (kineticsRes rnd) p.kinetics m.kinetics m0.kinetics
        mixes := loaded Mix.head (mixesRes rnd) p.mixes m.mixes m0.mixes
        reactions := loaded Reaction.head (reactionsRes rnd) p.reactions m.reactions m0.reactions
        temperatures := loaded StepList.head (temperaturesRes rnd) p.temperatures m.temperatures m0.temperatures }, 0⟩ _ l9
  exact q0.trans (q1.trans (q2.trans (q3.trans (q4.trans (q5.trans (q6.trans (q7.trans (q8.trans (q9.trans (q10.trans (readBlocks_use hr _ l10 _)))))))))))

end Verif.Raw
