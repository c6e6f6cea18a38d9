import Verif.Serial.CellsLemmas
import Verif.Raw.FileProps

/-!
# Moving the reactants of cells between processes (C131)
-/

namespace Verif.Serial

open Verif.OMap Verif.NameDouble Verif.Raw

theorem mem_interval (a b n : Int) : n ∈ interval a b ↔ a ≤ n ∧ n ≤ b := by
  unfold interval
  simp only [List.mem_map, List.mem_range]
  constructor
  · rintro ⟨k, hk, rfl⟩; omega
  · intro h; exact ⟨(n - a).toNat, by omega, by omega⟩

/-- The cells packed by a list of calls. -/
def packed (ranges : List (Int × Int)) : List Int := ranges.flatMap (fun r => interval r.1 r.2)

theorem mem_packed (ranges : List (Int × Int)) (n : Int) :
    n ∈ packed ranges ↔ InRanges ranges n := by
  unfold packed InRanges
  simp only [List.mem_flatMap, mem_interval]

theorem sendable_entities {m : Cells} {t p : Bool} {K : Int → Prop} (hm : m.Sendable t p K)
    {k : Int} (hk : K k) : ∀ e ∈ m.entities t p k, e.Sendable := by
  intro e he
  unfold Cells.entities at he
  simp only [List.mem_append, Option.mem_toList, Option.map_eq_some_iff] at he
  rcases he with (((((((he | he) | he) | he) | he) | he) | he) | he) | he
  · obtain ⟨x, hx, rfl⟩ := he; exact (hm.solutions k hk x hx).2
  · obtain ⟨x, hx, rfl⟩ := he; exact (hm.exchanges k hk x hx).2
  · obtain ⟨x, hx, rfl⟩ := he; exact (hm.gases k hk x hx).2
  · obtain ⟨x, hx, rfl⟩ := he; exact (hm.kinetics k hk x hx).2
  · obtain ⟨x, hx, rfl⟩ := he; exact (hm.pps k hk x hx).2
  · obtain ⟨x, hx, rfl⟩ := he; exact (hm.sss k hk x hx).2
  · obtain ⟨x, hx, rfl⟩ := he; exact (hm.surfaces k hk x hx).2
  · cases t with
    | true =>
      simp only [if_true, Option.mem_toList, Option.map_eq_some_iff] at he
      obtain ⟨x, _, rfl⟩ := he; trivial
    | false => simp at he
  · cases p with
    | true =>
      simp only [if_true, Option.mem_toList, Option.map_eq_some_iff] at he
      obtain ⟨x, _, rfl⟩ := he; trivial
    | false => simp at he

theorem Arrives.congr {α : Type} {rec : α → α} {K K' : Int → Prop} {s o n : SMap Int α}
    (h : Arrives rec K s o n) (hk : ∀ i, K i ↔ K' i) : Arrives rec K' s o n := by
  have : K = K' := funext fun i => propext (hk i)
  exact this ▸ h

theorem arrives_if {α : Type} (head : α → Head) (rec : α → α)
    (hrec : ∀ x, (head (rec x)).nUser = (head x).nUser) {S : α → Prop} (b : Bool) (ks : List Int)
    (sender : SMap Int α) (h : b = true → KindOk head S sender (· ∈ ks)) (old : SMap Int α) :
    Arrives rec (fun n => b = true ∧ n ∈ ks) sender old
      (((ks.flatMap (fun k => if b then (find sender k).toList else [])).map rec).foldl
        (fun m x => OMap.insert m (head x).nUser x) old) := by
  cases b with
  | true => simpa using find_foldl head rec hrec ks sender (h rfl) old
  | false =>
    have : ks.flatMap (fun _ : Int => ([] : List α)) = [] := by simp
    simp only [Bool.false_eq_true, if_false, this]
    exact fun n => ⟨fun h => by simp at h, fun _ => rfl⟩

/-- C131. The reactants of any ranges of cells are packed with one dictionary; the dictionary is
sent as text with the two vectors. Unpacking into any process succeeds and uses up both vectors
exactly. Every reactant sent is then filed under its number in the receiving process as
`received` says, and all other reactants there are unchanged. Missing: the viscosity of pure
water of a solution, the flag to calculate the viscosity of a diffuse layer, the `z` maps of
surfaces, and descriptions. -/
theorem cells_sent_partial (sender receiver : Cells) (t p : Bool) (ranges : List (Int × Int))
    (hm : sender.Sendable t p (InRanges ranges)) :
    ∃ new : Cells,
      (let w := sender.serialize t p ranges Dict.empty
       receiver.deserialize (Dict.ofText w.1.text) w.2.1 w.2.2) = .ok (new, ⟨[], []⟩) ∧
      AllArrive t p (InRanges ranges) sender receiver new := by
  have hflat : ranges.flatMap (fun r => (interval r.1 r.2).flatMap (sender.entities t p))
      = (packed ranges).flatMap (sender.entities t p) := by
    unfold packed; rw [List.flatMap_assoc]
  have hes : ∀ e ∈ (packed ranges).flatMap (sender.entities t p), e.Sendable := by
    intro e he
    obtain ⟨k, hk, he⟩ := List.mem_flatMap.mp he
    exact sendable_entities hm ((mem_packed _ _).mp hk) e he
  obtain ⟨h1, _, h3, _⟩ := carried_all carried_entity _ hes Dict.empty Dict.wf_empty
  have hs := h3 (by intro w hw; simp [Dict.empty] at hw)
  obtain ⟨_, hw⟩ := Dict.ofText_words h1 hs
  have hl := deserializeLoop_putAll _ hes Dict.empty
    (Dict.ofText (putAll putEntity ((packed ranges).flatMap (sender.entities t p))
      Dict.empty).1.text) Dict.wf_empty (by unfold Dict.Le; rw [hw]; exact List.prefix_rfl) _
    (le_refl _) receiver []
  rw [List.append_nil] at hl
  refine ⟨(((packed ranges).flatMap (sender.entities t p)).map Entity.received).foldl Cells.store
    receiver, ?_, ?_⟩
  · simp only [Cells.serialize, Cells.deserialize, hflat]
    exact hl
  · have hK : ∀ i, i ∈ packed ranges ↔ InRanges ranges i := mem_packed ranges
    constructor
    · rw [store_solutions, received_solutions, entities_solutions]
      exact (find_foldl (fun x : SolState => x.head) SolState.received (fun _ => rfl) _ _
        (fun k hk => hm.solutions k ((hK k).mp hk)) _).congr hK
    · rw [store_exchanges, received_exchanges, entities_exchanges]
      exact (find_foldl (Exchange.head) Exchange.received (fun _ => rfl) _ _
        (fun k hk => hm.exchanges k ((hK k).mp hk)) _).congr hK
    · rw [store_gases, received_gases, entities_gases]
      exact (find_foldl (GasPhase.head) GasPhase.received (fun _ => rfl) _ _
        (fun k hk => hm.gases k ((hK k).mp hk)) _).congr hK
    · rw [store_kinetics, received_kinetics, entities_kinetics]
      exact (find_foldl (Kinetics.head) Kinetics.received (fun _ => rfl) _ _
        (fun k hk => hm.kinetics k ((hK k).mp hk)) _).congr hK
    · rw [store_pps, received_pps, entities_pps]
      exact (find_foldl (PPAssemblage.head) PPAssemblage.received (fun _ => rfl) _ _
        (fun k hk => hm.pps k ((hK k).mp hk)) _).congr hK
    · rw [store_sss, received_sss, entities_sss]
      exact (find_foldl (SSAssemblage.head) SSAssemblage.received (fun _ => rfl) _ _
        (fun k hk => hm.sss k ((hK k).mp hk)) _).congr hK
    · rw [store_surfaces, received_surfaces, entities_surfaces]
      exact (find_foldl (Surface.head) Surface.received (fun _ => rfl) _ _
        (fun k hk => hm.surfaces k ((hK k).mp hk)) _).congr hK
    · rw [store_temperatures, received_temperatures, entities_temperatures]
      exact (arrives_if (StepList.head) StepList.received (fun _ => rfl) _ _ _
        (fun ht k hk => hm.temperatures ht k ((hK k).mp hk)) _).congr (fun i => by rw [hK i])
    · rw [store_pressures, received_pressures, entities_pressures]
      exact (arrives_if (StepList.head) StepList.received (fun _ => rfl) _ _ _
        (fun ht k hk => hm.pressures ht k ((hK k).mp hk)) _).congr (fun i => by rw [hK i])

/-- C131 is violated: the viscosity of pure water of a solution is not sent; the receiver has 1,
whatever the sender had. -/
theorem viscos0_violated (sender receiver : Cells) (t p : Bool) (k : Int) (x : SolState)
    (hm : sender.Sendable t p (InRanges [(k, k)])) (hx : find sender.solutions k = some x) :
    ∃ new : Cells, ∃ y : SolState,
      (let w := sender.serialize t p [(k, k)] Dict.empty
       receiver.deserialize (Dict.ofText w.1.text) w.2.1 w.2.2) = .ok (new, ⟨[], []⟩) ∧
      find new.solutions k = some y ∧ y.viscos0 = 1 ∧ y.viscosity = x.viscosity := by
  obtain ⟨new, h1, h2⟩ := cells_sent_partial sender receiver t p [(k, k)] hm
  exact ⟨new, _, h1, (h2.solutions k).1 ⟨_, List.mem_singleton_self _, le_refl _, le_refl _⟩ x hx,
    rfl, rfl⟩

/-- C131 is violated: a surface that calculates the viscosity of its diffuse layer does not do so
after the transfer. -/
theorem calcViscosity_violated (sender receiver : Cells) (t p : Bool) (k : Int) (x : Surface)
    (hm : sender.Sendable t p (InRanges [(k, k)])) (hx : find sender.surfaces k = some x) :
    ∃ new : Cells, ∃ y : Surface,
      (let w := sender.serialize t p [(k, k)] Dict.empty
       receiver.deserialize (Dict.ofText w.1.text) w.2.1 w.2.2) = .ok (new, ⟨[], []⟩) ∧
      find new.surfaces k = some y ∧ y.calcViscosity = false ∧
      y.comps = x.comps ∧ y.viscosity = x.viscosity := by
  obtain ⟨new, h1, h2⟩ := cells_sent_partial sender receiver t p [(k, k)] hm
  exact ⟨new, _, h1, (h2.surfaces k).1 ⟨_, List.mem_singleton_self _, le_refl _, le_refl _⟩ x hx,
    rfl, rfl, rfl⟩

/-- C131. An unknown tag in the integers ends the unpacking; nothing is stored under it. -/
theorem unknown_tag_throws (m : Cells) (d : Dict) (tag : Int) (ints : List Int) (dbls : List ℚ)
    (h : tag < 0 ∨ 8 < tag) : m.deserialize d (tag :: ints) dbls = .throw := by
  have hg : getEntity d ⟨tag :: ints, dbls⟩ = .throw := by
    simp only [getEntity, getInt]
    split <;> first | rfl | omega
  simp only [Cells.deserialize, List.length_cons, deserializeLoop, hg]
  rw [if_neg (by simp)]

/-- Reactants of all kinds in cell 3 and an exchanger in cell 8; the viscosity of pure water is not
1 and the surface calculates the viscosity of its diffuse layer. -/
def exampleCells : Cells where
  solutions := [(3, ⟨{ exampleSolution with viscos0 := 89/100 }, true⟩)]
  exchanges := [(3, { exampleExchange with head := ⟨3, 3, []⟩ }),
    (8, { exampleExchange with head := ⟨8, 8, []⟩ })]
  gases := [(3, { exampleGas with head := ⟨3, 3, []⟩ })]
  kinetics := [(3, { exampleKinetics with head := ⟨3, 3, []⟩ })]
  pps := [(3, { examplePP with head := ⟨3, 3, []⟩ })]
  sss := [(3, { exampleSS with head := ⟨3, 3, []⟩ })]
  surfaces := [(3, { exampleSurface with head := ⟨3, 3, []⟩, calcViscosity := true })]
  temperatures := [(3, { exampleTemps with head := ⟨3, 3, []⟩ })]
  pressures := [(3, ⟨⟨3, 3, []⟩, [1, 2], 2, false⟩)]

instance (w : List Char) : Decidable (GoodWord w) := by unfold GoodWord; infer_instance

instance (m : ND) : Decidable (SendableND m) := by unfold SendableND Sorted; infer_instance

/-- The conditions of `cells_sent_partial`, `viscos0_violated` and `calcViscosity_violated` can be
met. -/
theorem exampleCells_sendable : exampleCells.Sendable true false (InRanges [(3, 3)]) := by
  have one : ∀ {β : Type} (head : β → Head) (P : β → Prop) (x : β) (l : SMap Int β),
      (head x).nUser = 3 → P x → KindOk head P ((3, x) :: l) (InRanges [(3, 3)]) := by
    rintro β head P x l h1 h2 k ⟨r, hr, h3, h4⟩ y hy
    rw [List.mem_singleton] at hr
    subst hr
    have hk : k = 3 := le_antisymm h4 h3
    subst hk
    simp only [find, if_true, Option.some.injEq] at hy
    subst hy
    exact ⟨h1, h2⟩
  refine ⟨one _ _ _ _ rfl ?_, one _ _ _ _ rfl ?_, one _ _ _ _ rfl ?_, one _ _ _ _ rfl ?_,
    one _ _ _ _ rfl ?_, one _ _ _ _ rfl ?_, one _ _ _ _ rfl ?_, fun _ => one _ _ _ _ rfl trivial,
    fun h => by cases h⟩
  · unfold SolState.Sendable Sorted; decide +kernel
  · unfold Exchange.Sendable; decide +kernel
  · unfold GasPhase.Sendable; decide +kernel
  · unfold Kinetics.Sendable; decide +kernel
  · unfold PPAssemblage.Sendable Sorted; decide +kernel
  · unfold SSAssemblage.Sendable Sorted; decide +kernel
  · unfold Surface.Sendable Sorted; decide +kernel

/-- The example moved to a process that has another exchanger 3, which is replaced, and an
exchanger 9, which stays. -/
example : ∃ new y z, (let w := exampleCells.serialize true false [(3, 3)] Dict.empty
      Cells.deserialize { exampleCells with exchanges := [(3, { exampleExchange with comps := [] }),
        (9, exampleExchange)] } (Dict.ofText w.1.text) w.2.1 w.2.2) = .ok (new, ⟨[], []⟩) ∧
    find new.exchanges 3 = some y ∧ y.comps = exampleExchange.comps ∧
    find new.exchanges 9 = some exampleExchange ∧ find new.exchanges 8 = none ∧
    find new.solutions 3 = some z ∧ z.viscos0 ≠ 89/100 := by
  have hk : InRanges [(3, 3)] 3 := ⟨_, List.mem_singleton_self _, le_refl _, le_refl _⟩
  have hno : ∀ n, n ≠ 3 → ¬ InRanges [(3, 3)] n := by
    rintro n hn ⟨r, hr, h1, h2⟩
    rw [List.mem_singleton] at hr
    subst hr
    exact hn (le_antisymm h2 h1)
  obtain ⟨new, h1, h2⟩ := cells_sent_partial exampleCells
    { exampleCells with exchanges := [(3, { exampleExchange with comps := [] }),
      (9, exampleExchange)] } true false [(3, 3)] exampleCells_sendable
  exact ⟨new, _, _, h1, (h2.exchanges 3).1 hk _ rfl, rfl,
    (h2.exchanges 9).2 (Or.inl (hno 9 (by decide))),
    (h2.exchanges 8).2 (Or.inl (hno 8 (by decide))), (h2.solutions 3).1 hk _ rfl,
    by decide +kernel⟩

end Verif.Serial
