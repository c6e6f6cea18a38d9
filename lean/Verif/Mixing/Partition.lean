import Verif.Mixing.Valid
import Verif.PartitionUZ.Props

/-!
# C09 with the real reactants

`Verif.PartitionUZ` takes the way two entities of a kind are mixed as a parameter. Here it is
the mixing constructor of each class.
-/

namespace Verif.Mixing

open Verif.OMap Verif.NameDouble Verif.Store Verif.PartitionUZ

/-- A reactant of one of the kinds that are partitioned. -/
inductive Reactant
  | exch (e : Exchange)
  | pp (e : PPAssemblage)
  | gas (e : GasPhase)
  | ss (e : SSAssemblage)
  | kin (e : Kinetics)
  | surf (e : Surface)
  deriving DecidableEq, Repr

def Reactant.asExch : Reactant → Option Exchange | .exch e => some e | _ => none
def Reactant.asPP : Reactant → Option PPAssemblage | .pp e => some e | _ => none
def Reactant.asGas : Reactant → Option GasPhase | .gas e => some e | _ => none
def Reactant.asSS : Reactant → Option SSAssemblage | .ss e => some e | _ => none
def Reactant.asKin : Reactant → Option Kinetics | .kin e => some e | _ => none
def Reactant.asSurf : Reactant → Option Surface | .surf e => some e | _ => none

/-- The map of entities built by `PartitionUZ`: number 0 from the saturated zone, number 1 from
the unsaturated zone (`/repo/src/PhreeqcRM.cpp:7599-7620`). -/
def two {E : Type} (a b : Option E) (n : Int) : Option E :=
  if n = 0 then a else if n = 1 then b else none

/-- The two-part mixture (`/repo/src/PhreeqcRM.cpp:7599-7607`). -/
def mix01 (f g : ℚ) : Mix := [(0, f), (1, g)]

/-- The mixing constructors as used by `PartitionUZ` (`/repo/src/PhreeqcRM.cpp:7611-7675`). A
map of one kind holds entities of that kind only; other cases are never met and treated as
absent. -/
def mixReactant (k : Kind) (a : Reactant) (b : Option Reactant) (f g : ℚ) : Reactant :=
  match k with
  | .exchange => .exch (Exchange.mix (two a.asExch (b.bind Reactant.asExch)) (mix01 f g))
  | .ppAssemblage => .pp (PPAssemblage.mix (two a.asPP (b.bind Reactant.asPP)) (mix01 f g))
  | .gasPhase =>
    if a.asGas = none ∧ b.bind Reactant.asGas = none then a
    else .gas (GasPhase.mix (two a.asGas (b.bind Reactant.asGas)) (mix01 f g))
  | .ssAssemblage => .ss (SSAssemblage.mix (two a.asSS (b.bind Reactant.asSS)) (mix01 f g))
  | .kinetics => .kin (Kinetics.mix (two a.asKin (b.bind Reactant.asKin)) (mix01 f g))
  | .surface => .surf (Surface.mix (two a.asSurf (b.bind Reactant.asSurf)) (mix01 f g))
  | _ => a

/-- Valid reactants; every phase has one reaction formula and gas phases are of one type. -/
def Reactant.Valid (F : Name → Name) (T : GasType) : Reactant → Prop
  | .exch e => e.Valid
  | .pp e => PPInv F e
  | .gas e => e.Valid ∧ e.type = T
  | .ss e => SSAssemblage.Valid e
  | .kin e => e.Valid
  | .surf e => e.Valid

theorem two_valid {E : Type} {V : E → Prop} {a b : Option E} (ha : ∀ e, a = some e → V e)
    (hb : ∀ e, b = some e → V e) : ∀ n e, two a b n = some e → V e := by
  intro n e h
  unfold two at h
  split at h
  · exact ha e h
  · split at h
    · exact hb e h
    · cases h

theorem mixReactant_valid (F : Name → Name) (T : GasType) (k : Kind) (a : Reactant)
    (b : Option Reactant) (f g : ℚ) (ha : a.Valid F T) (hb : ∀ r, b = some r → r.Valid F T) :
    (mixReactant k a b f g).Valid F T := by
  cases k <;> try exact ha
  · refine exchange_valid _ (two_valid ?_ ?_) _
    · intro e h; cases a <;> cases h; exact ha
    · intro e h; obtain ⟨r, hr, h⟩ := Option.bind_eq_some_iff.mp h
      have := hb r hr; cases r <;> cases h; exact this
  · unfold mixReactant
    simp only
    split
    · exact ha
    · rename_i hne
      refine gas_valid T _ (two_valid ?_ ?_) _ ?_
      · intro e h; cases a <;> cases h; exact ha
      · intro e h; obtain ⟨r, hr, h⟩ := Option.bind_eq_some_iff.mp h
        have := hb r hr; cases r <;> cases h; exact this
      · by_cases e : a.asGas = none
        · refine ⟨(1, g), by simp [mix01], ?_⟩
          simpa [two] using fun h => hne ⟨e, h⟩
        · refine ⟨(0, f), by simp [mix01], ?_⟩
          simpa [two] using e
  · refine kinetics_valid _ (two_valid ?_ ?_) _
    · intro e h; cases a <;> cases h; exact ha
    · intro e h; obtain ⟨r, hr, h⟩ := Option.bind_eq_some_iff.mp h
      have := hb r hr; cases r <;> cases h; exact this
  · refine pp_valid _ F (two_valid ?_ ?_) _
    · intro e h; cases a <;> cases h; exact ha
    · intro e h; obtain ⟨r, hr, h⟩ := Option.bind_eq_some_iff.mp h
      have := hb r hr; cases r <;> cases h; exact this
  · refine ss_valid _ (two_valid ?_ ?_) _
    · intro e h; cases a <;> cases h; exact ha
    · intro e h; obtain ⟨r, hr, h⟩ := Option.bind_eq_some_iff.mp h
      have := hb r hr; cases r <;> cases h; exact this
  · refine surface_valid _ (two_valid ?_ ?_) _
    · intro e h; cases a <;> cases h; exact ha
    · intro e h; obtain ⟨r, hr, h⟩ := Option.bind_eq_some_iff.mp h
      have := hb r hr; cases r <;> cases h; exact this

/-- The amounts users count: moles of an element on an exchanger, of a phase, of a gas, of a
component of a solid solution, of a kinetic reactant, of an element on surface sites, of
sites, of an element in a diffuse layer. -/
inductive Quantity
  | exch (formula element : Name)
  | pp (phase : Name)
  | gas (gas : Name)
  | ss (solid comp : Name)
  | kin (rate : Name)
  | surf (formula element : Name)
  | sites (formula : Name)
  | diffuse (surface element : Name)

/-- The amount of a quantity in a reactant of kind `k`. -/
def measure : Quantity → Kind → Reactant → ℚ
  | .exch f el, .exchange, .exch e => exchAmount f el e
  | .pp n, .ppAssemblage, .pp e => ppAmount PPComp.moles n e
  | .gas n, .gasPhase, .gas e => gasAmount GasComp.moles n e
  | .ss s n, .ssAssemblage, .ss e => ssAmount SSComp.moles s n e
  | .kin n, .kinetics, .kin e => kinAmount KinComp.m n e
  | .surf f el, .surface, .surf e => surfAmount f el e
  | .sites f, .surface, .surf e => siteAmount SurfComp.moles f e
  | .diffuse n el, .surface, .surf e => diffuseAmount n el e
  | _, _, _ => 0

/-- The reactants that meet the conditions. -/
abbrev VReactant (F : Name → Name) (T : GasType) := { r : Reactant // r.Valid F T }

/-- Mixing of such reactants. -/
def vmix (F : Name → Name) (T : GasType) (k : Kind) (a : VReactant F T)
    (b : Option (VReactant F T)) (f g : ℚ) : VReactant F T :=
  ⟨mixReactant k a.1 (b.map Subtype.val) f g, mixReactant_valid F T k a.1 _ f g a.2 (by
    intro r h
    obtain ⟨x, _, rfl⟩ := Option.map_eq_some_iff.mp h
    exact x.2)⟩

theorem wsum_two {E : Type} (G : E → ℚ) (a b : Option E) (f g : ℚ) :
    wsum G (parts (two a b) (mix01 f g)) = f * a.elim 0 G + g * b.elim 0 G := by
  cases a <;> cases b <;> simp [parts, two, mix01, wsum]

/-- The real mixing is linear in every quantity. -/
theorem vmix_linear (F : Name → Name) (T : GasType) (q : Quantity) :
    Linear (fun k (r : VReactant F T) => measure q k r.1) (vmix F T) := by
  have hb : ∀ {E : Type} (as : Reactant → Option E) (V : E → Prop)
      (_ : ∀ r : Reactant, r.Valid F T → ∀ e, as r = some e → V e) (a : VReactant F T)
      (b : Option (VReactant F T)) n e,
      two (as a.1) ((b.map Subtype.val).bind as) n = some e → V e := by
    intro E as V h a b
    refine two_valid (fun e he => h a.1 a.2 e he) (fun e he => ?_)
    obtain ⟨r, hr, he⟩ := Option.bind_eq_some_iff.mp he
    obtain ⟨x, _, rfl⟩ := Option.map_eq_some_iff.mp hr
    exact h x.1 x.2 e he
  have amt : ∀ {E : Type} (as : Reactant → Option E) (G : E → ℚ) (k : Kind)
      (_ : ∀ r, measure q k r = (as r).elim 0 G) (a : VReactant F T)
      (b : Option (VReactant F T)) (f g : ℚ),
      wsum G (parts (two (as a.1) ((b.map Subtype.val).bind as)) (mix01 f g)) =
        f * measure q k a.1 + g * amount (fun r : VReactant F T => measure q k r.1) b := by
    intro E as G k h a b f g
    rw [wsum_two, h a.1]
    cases b with
    | none => simp
    | some x => simp [h x.1]
  intro k a b f g
  have zero : (∀ r, measure q k r = 0) → measure q k (vmix F T k a b f g).1 =
      f * measure q k a.1 + g * amount (fun r : VReactant F T => measure q k r.1) b := by
    intro h
    rw [h, h]
    cases b with
    | none => simp
    | some x => simp [h x.1]
  simp only
  cases q <;> cases k <;>
    first
    | (refine zero (fun r => ?_); cases r <;> rfl)
    | skip
  · rename_i f' el
    rw [← amt Reactant.asExch (exchAmount f' el) .exchange (fun r => by cases r <;> rfl)]
    exact (exchange_mix _ (hb Reactant.asExch Exchange.Valid
      (fun r h e he => by cases r <;> cases he; exact h) a b) _ f' el).1
  · rename_i n
    rw [← amt Reactant.asPP (ppAmount PPComp.moles n) .ppAssemblage (fun r => by cases r <;> rfl)]
    have h := hb Reactant.asPP (PPInv F) (fun r h e he => by cases r <;> cases he; exact h) a b
    exact (pp_mix_partial _ F (fun n e he => (h n e he).1) (fun n e he => (h n e he).2) _).1 _
      (by simp [ppAmounts]) n
  · rename_i n
    rw [← amt Reactant.asGas (gasAmount GasComp.moles n) .gasPhase (fun r => by cases r <;> rfl)]
    have h := hb Reactant.asGas (fun e => e.Valid ∧ e.type = T)
      (fun r h e he => by cases r <;> cases he; exact h) a b
    unfold vmix mixReactant
    simp only
    split
    · rename_i hn
      rw [hn.1, hn.2, wsum_two]
      have : measure (Quantity.gas n) .gasPhase a.1 = a.1.asGas.elim 0 (gasAmount GasComp.moles n) := by
        cases a.1 <;> rfl
      rw [this, hn.1]; simp
    · exact (gas_mix_partial _ T h _).1 _ (by simp [gasAmounts]) n
  · rename_i s n
    rw [← amt Reactant.asSS (ssAmount SSComp.moles s n) .ssAssemblage (fun r => by cases r <;> rfl)]
    exact ss_mix _ (hb Reactant.asSS SSAssemblage.Valid
      (fun r h e he => by cases r <;> cases he; exact h) a b) _ _ (by simp [ssAmounts]) s n
  · rename_i n
    rw [← amt Reactant.asKin (kinAmount KinComp.m n) .kinetics (fun r => by cases r <;> rfl)]
    exact kinetics_mix _ (hb Reactant.asKin Kinetics.Valid
      (fun r h e he => by cases r <;> cases he; exact h) a b) _ _ (by simp [kinAmounts]) n
  · rename_i f' el
    rw [← amt Reactant.asSurf (surfAmount f' el) .surface (fun r => by cases r <;> rfl)]
    exact (surface_mix _ (hb Reactant.asSurf Surface.Valid
      (fun r h e he => by cases r <;> cases he; exact h) a b) _ f' el []).1
  · rename_i f'
    rw [← amt Reactant.asSurf (siteAmount SurfComp.moles f') .surface (fun r => by cases r <;> rfl)]
    exact (surface_mix _ (hb Reactant.asSurf Surface.Valid
      (fun r h e he => by cases r <;> cases he; exact h) a b) _ f' [] []).2.1 _
      (by simp [siteAmounts])
  · rename_i n el
    rw [← amt Reactant.asSurf (diffuseAmount n el) .surface (fun r => by cases r <;> rfl)]
    exact (surface_mix _ (hb Reactant.asSurf Surface.Valid
      (fun r h e he => by cases r <;> cases he; exact h) a b) _ [] el n).2.2.2

/-- C09 with the reactants of the code. For all saturations: partitioning conserves, over both
zones together, the moles of every element on every exchanger, surface and diffuse layer, of
every phase, gas, solid-solution component and kinetic reactant, provided a phase has the same
reaction formula and gas phases the same type in both zones. -/
theorem partition_conserves_moles (F : Name → Name) (T : GasType) (q : Quantity)
    (c : UZCell (VReactant F T)) (new : ℚ) (hp : Paired c)
    (hk : ∀ k, ¬ Solid k → c.uz k = none) :
    ∃ c', partitionUZ (vmix F T) c new = .ok c' ∧
      ∀ k, total (fun k (r : VReactant F T) => measure q k r.1) c' k =
        total (fun k (r : VReactant F T) => measure q k r.1) c k := by
  obtain ⟨c', h1, h2, _⟩ := partitionUZ_conserves (fun k (r : VReactant F T) => measure q k r.1)
    (vmix F T) (vmix_linear F T q) c new hp hk
  exact ⟨c', h1, h2⟩

/-- C09, whole histories with the reactants of the code. -/
theorem history_conserves_moles (F : Name → Name) (T : GasType) (q : Quantity)
    (es : List (Event (VReactant F T))) (c : UZCell (VReactant F T)) (hp : Paired c)
    (hk : ∀ k, ¬ Solid k → c.uz k = none) :
    ∃ c', runEvents (vmix F T) es c = .ok c' ∧
      ∀ k, total (fun k (r : VReactant F T) => measure q k r.1) c' k =
        total (fun k (r : VReactant F T) => measure q k r.1) c k +
          produced (fun k (r : VReactant F T) => measure q k r.1) (vmix F T) k es c :=
  history_conserves _ _ (vmix_linear F T q) es c hp hk

/-- A cell with calcite, half dry, then nearly dry: the premises are met. -/
def demoCell : UZCell (VReactant (fun _ => []) .pressure) where
  sz k := if k = .ppAssemblage then
    some ⟨.pp ⟨[("Calcite".toList, ⟨"Calcite".toList, [], 0, 0, 10, 0, 10⟩)], []⟩,
      ⟨⟨by simp [Sorted], by simp, by simp, List.Pairwise.nil⟩, by simp⟩⟩ else none
  uz _ := none
  old := 1 / 2

example : Paired demoCell ∧ (∀ k, ¬ Solid k → demoCell.uz k = none) :=
  ⟨fun _ _ => rfl, fun _ _ => rfl⟩

end Verif.Mixing
