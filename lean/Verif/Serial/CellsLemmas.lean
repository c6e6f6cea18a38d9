import Verif.Serial.EntityLemmas

/-!
# Packing and unpacking the reactants of cells
-/

namespace Verif.Serial

open Verif.OMap Verif.NameDouble Verif.Raw

/-- What the receiver gets for a packed reactant. -/
def Entity.received : Entity → Entity
  | .solution x => .solution (SolState.received x)
  | .exchange x => .exchange (Exchange.received x)
  | .gas x => .gas (GasPhase.received x)
  | .kinetics x => .kinetics (Kinetics.received x)
  | .pp x => .pp (PPAssemblage.received x)
  | .ss x => .ss (SSAssemblage.received x)
  | .surface x => .surface (Surface.received x)
  | .temperature x => .temperature (StepList.received x)
  | .pressure x => .pressure (StepList.received x)

/-- The reactant can be packed. -/
def Entity.Sendable : Entity → Prop
  | .solution x => SolState.Sendable x
  | .exchange x => Exchange.Sendable x
  | .gas x => GasPhase.Sendable x
  | .kinetics x => Kinetics.Sendable x
  | .pp x => PPAssemblage.Sendable x
  | .ss x => SSAssemblage.Sendable x
  | .surface x => Surface.Sendable x
  | .temperature _ => True
  | .pressure _ => True

theorem carried_entity : Carried putEntity getEntity Entity.Sendable Entity.received := by
  intro e he d hd
  cases e with
  | solution x =>
    obtain ⟨b1, b2, b4, b3⟩ := carried_solution x he d hd
    refine ⟨b1, b2, b4, fun d' hle s => ?_⟩
    have := b3 d' hle s
    simp only [putEntity, putPair, putInt, getEntity, getInt, List.cons_append, List.nil_append,
      getVia]
    rw [this]; rfl
  | exchange x =>
    obtain ⟨b1, b2, b4, b3⟩ := carried_exchange x he d hd
    refine ⟨b1, b2, b4, fun d' hle s => ?_⟩
    have := b3 d' hle s
    simp only [putEntity, putPair, putInt, getEntity, getInt, List.cons_append, List.nil_append,
      getVia]
    rw [this]; rfl
  | gas x =>
    obtain ⟨b1, b2, b4, b3⟩ := carried_gas x he d hd
    refine ⟨b1, b2, b4, fun d' hle s => ?_⟩
    have := b3 d' hle s
    simp only [putEntity, putPair, putInt, getEntity, getInt, List.cons_append, List.nil_append,
      getVia]
    rw [this]; rfl
  | kinetics x =>
    obtain ⟨b1, b2, b4, b3⟩ := carried_kinetics x he d hd
    refine ⟨b1, b2, b4, fun d' hle s => ?_⟩
    have := b3 d' hle s
    simp only [putEntity, putPair, putInt, getEntity, getInt, List.cons_append, List.nil_append,
      getVia]
    rw [this]; rfl
  | pp x =>
    obtain ⟨b1, b2, b4, b3⟩ := carried_pp x he d hd
    refine ⟨b1, b2, b4, fun d' hle s => ?_⟩
    have := b3 d' hle s
    simp only [putEntity, putPair, putInt, getEntity, getInt, List.cons_append, List.nil_append,
      getVia]
    rw [this]; rfl
  | ss x =>
    obtain ⟨b1, b2, b4, b3⟩ := carried_ssAssemblage x he d hd
    refine ⟨b1, b2, b4, fun d' hle s => ?_⟩
    have := b3 d' hle s
    simp only [putEntity, putPair, putInt, getEntity, getInt, List.cons_append, List.nil_append,
      getVia]
    rw [this]; rfl
  | surface x =>
    obtain ⟨b1, b2, b4, b3⟩ := carried_surface x he d hd
    refine ⟨b1, b2, b4, fun d' hle s => ?_⟩
    have := b3 d' hle s
    simp only [putEntity, putPair, putInt, getEntity, getInt, List.cons_append, List.nil_append,
      getVia]
    rw [this]; rfl
  | temperature x =>
    obtain ⟨b1, b2, b4, b3⟩ := carried_steps x trivial d hd
    refine ⟨b1, b2, b4, fun d' hle s => ?_⟩
    have := b3 d' hle s
    simp only [putEntity, putPair, putInt, getEntity, getInt, List.cons_append, List.nil_append,
      getVia]
    rw [this]; rfl
  | pressure x =>
    obtain ⟨b1, b2, b4, b3⟩ := carried_steps x trivial d hd
    refine ⟨b1, b2, b4, fun d' hle s => ?_⟩
    have := b3 d' hle s
    simp only [putEntity, putPair, putInt, getEntity, getInt, List.cons_append, List.nil_append,
      getVia]
    rw [this]; rfl

theorem putEntity_ints (e : Entity) (d : Dict) : 0 < (putEntity e d).2.1.length := by
  cases e <;> simp [putEntity, putPair, putInt]

/-- The loop of `Deserialize` over packed reactants. -/
theorem deserializeLoop_putAll (es : List Entity) (hes : ∀ e ∈ es, e.Sendable) (d d' : Dict)
    (hd : d.WF) (hle : (putAll putEntity es d).1.Le d') (n : Nat)
    (hn : (putAll putEntity es d).2.1.length ≤ n) (m : Cells) (r : List ℚ) :
    deserializeLoop n d' ⟨(putAll putEntity es d).2.1, (putAll putEntity es d).2.2 ++ r⟩ m
      = .ok ((es.map Entity.received).foldl Cells.store m, ⟨[], r⟩) := by
  induction es generalizing d n m with
  | nil => cases n <;> simp [deserializeLoop, putAll]
  | cons e es ih =>
    obtain ⟨a1, _, _, a3⟩ := carried_entity e (hes e List.mem_cons_self) d hd
    obtain ⟨_, b2, _, _⟩ := carried_all carried_entity es
      (fun x hx => hes x (List.mem_cons_of_mem _ hx)) _ a1
    have hp := putEntity_ints e d
    simp only [putAll] at hle hn ⊢
    simp only [List.length_append] at hn
    obtain ⟨n, rfl⟩ : ∃ k, n = k + 1 := ⟨n - 1, by omega⟩
    have hne : (putEntity e d).2.1 ++ (putAll putEntity es (putEntity e d).1).2.1 ≠ [] := by
      intro h
      rw [List.append_eq_nil_iff] at h
      rw [h.1] at hp
      simp at hp
    have h1 := a3 d' (b2.trans hle) ⟨(putAll putEntity es (putEntity e d).1).2.1,
      (putAll putEntity es (putEntity e d).1).2.2 ++ r⟩
    simp only [deserializeLoop]
    rw [if_neg hne]
    rw [List.append_assoc, h1]
    simp only [List.map_cons, List.foldl_cons]
    exact ih (fun x hx => hes x (List.mem_cons_of_mem _ hx)) _ a1 hle n (by omega) _

theorem find_foldl {α : Type} (head : α → Head) (rec : α → α)
    (hrec : ∀ x, (head (rec x)).nUser = (head x).nUser) {S : α → Prop} (ks : List Int)
    (sender : SMap Int α) (h : KindOk head S sender (· ∈ ks)) (old : SMap Int α) :
    Arrives rec (· ∈ ks) sender old (((ks.flatMap (fun k => (find sender k).toList)).map rec).foldl
      (fun m x => OMap.insert m (head x).nUser x) old) := by
  induction ks generalizing old with
  | nil => exact fun n => ⟨fun h => (List.not_mem_nil h).elim, fun _ => rfl⟩
  | cons k ks ih =>
    have ih := ih (fun j hj => h j (List.mem_cons_of_mem _ hj))
    cases hk : find sender k with
    | none =>
      simp only [List.flatMap_cons, hk, Option.toList_none, List.nil_append]
      intro n
      obtain ⟨i1, i2⟩ := ih old n
      refine ⟨fun hn x hx => ?_, fun hn => i2 ?_⟩
      · rcases List.mem_cons.mp hn with rfl | hn
        · rw [hk] at hx; cases hx
        · exact i1 hn x hx
      · exact hn.imp (fun h hm => h (List.mem_cons_of_mem _ hm)) id
    | some x =>
      simp only [List.flatMap_cons, hk, Option.toList_some, List.map_append, List.map_cons,
        List.map_nil, List.foldl_append, List.foldl_cons, List.foldl_nil]
      have hn0 := (h k List.mem_cons_self x hk).1
      rw [hrec, hn0]
      intro n
      obtain ⟨i1, i2⟩ := ih (OMap.insert old k (rec x)) n
      refine ⟨fun hn y hy => ?_, fun hn => ?_⟩
      · by_cases hm : n ∈ ks
        · exact i1 hm y hy
        · rcases List.mem_cons.mp hn with rfl | hn
          · rw [i2 (Or.inl hm), find_insert, if_pos rfl]
            rw [hk] at hy
            cases hy; rfl
          · exact absurd hn hm
      · have hnk : n ≠ k := by
          rintro rfl
          rcases hn with hn | hn
          · exact hn List.mem_cons_self
          · rw [hk] at hn; cases hn
        rw [i2 (hn.imp (fun h hm => h (List.mem_cons_of_mem _ hm)) id), find_insert,
          if_neg (by simpa using hnk)]

theorem fm_none {α β : Type} (f : Entity → Option β) (C : α → Entity) (h : ∀ x, f (C x) = none)
    (o : Option α) : ((o.map C).toList).filterMap f = [] := by
  cases o <;> simp [h]

theorem fm_same {α : Type} (f : Entity → Option α) (C : α → Entity) (h : ∀ x, f (C x) = some x)
    (o : Option α) : ((o.map C).toList).filterMap f = o.toList := by
  cases o <;> simp [h]

theorem fm_if {β : Type} (f : Entity → Option β) (b : Bool) (l : List Entity) :
    (if b then l else []).filterMap f = if b then l.filterMap f else [] := by
  cases b <;> rfl

/-- The reactant if it is of this kind. -/
def Entity.solution? : Entity → Option SolState
  | .solution x => some x
  | _ => none

theorem store_solutions (es : List Entity) (m : Cells) :
    (es.foldl Cells.store m).solutions = (es.filterMap Entity.solution?).foldl
      (fun m x => OMap.insert m x.head.nUser x) m.solutions := by
  induction es generalizing m with
  | nil => rfl
  | cons e es ih =>
    simp only [List.foldl_cons, ih]
    cases e <;> rfl

theorem received_solutions (es : List Entity) :
    (es.map Entity.received).filterMap Entity.solution? = (es.filterMap Entity.solution?).map SolState.received := by
  induction es with
  | nil => rfl
  | cons e es ih => 
    cases e <;> simp only [List.map_cons, Entity.received, List.filterMap_cons, Entity.solution?, ih]

theorem entities_solutions (m : Cells) (t p : Bool) (ks : List Int) :
    (ks.flatMap (m.entities t p)).filterMap Entity.solution?
      = ks.flatMap (fun k => (find m.solutions k).toList) := by
  induction ks with
  | nil => rfl
  | cons k ks ih =>
    simp only [List.flatMap_cons, List.filterMap_append, ih]
    congr 1
    unfold Cells.entities
    simp only [List.filterMap_append, fm_if, fm_same Entity.solution? Entity.solution (fun _ => rfl), fm_none Entity.solution? Entity.exchange (fun _ => rfl), fm_none Entity.solution? Entity.gas (fun _ => rfl), fm_none Entity.solution? Entity.kinetics (fun _ => rfl), fm_none Entity.solution? Entity.pp (fun _ => rfl), fm_none Entity.solution? Entity.ss (fun _ => rfl), fm_none Entity.solution? Entity.surface (fun _ => rfl), fm_none Entity.solution? Entity.temperature (fun _ => rfl), fm_none Entity.solution? Entity.pressure (fun _ => rfl),
      List.nil_append, List.append_nil, ite_self]

/-- The reactant if it is of this kind. -/
def Entity.exchange? : Entity → Option Exchange
  | .exchange x => some x
  | _ => none

theorem store_exchanges (es : List Entity) (m : Cells) :
    (es.foldl Cells.store m).exchanges = (es.filterMap Entity.exchange?).foldl
      (fun m x => OMap.insert m x.head.nUser x) m.exchanges := by
  induction es generalizing m with
  | nil => rfl
  | cons e es ih =>
    simp only [List.foldl_cons, ih]
    cases e <;> rfl

theorem received_exchanges (es : List Entity) :
    (es.map Entity.received).filterMap Entity.exchange? = (es.filterMap Entity.exchange?).map Exchange.received := by
  induction es with
  | nil => rfl
  | cons e es ih => 
    cases e <;> simp only [List.map_cons, Entity.received, List.filterMap_cons, Entity.exchange?, ih]

theorem entities_exchanges (m : Cells) (t p : Bool) (ks : List Int) :
    (ks.flatMap (m.entities t p)).filterMap Entity.exchange?
      = ks.flatMap (fun k => (find m.exchanges k).toList) := by
  induction ks with
  | nil => rfl
  | cons k ks ih =>
    simp only [List.flatMap_cons, List.filterMap_append, ih]
    congr 1
    unfold Cells.entities
    simp only [List.filterMap_append, fm_if, fm_none Entity.exchange? Entity.solution (fun _ => rfl), fm_same Entity.exchange? Entity.exchange (fun _ => rfl), fm_none Entity.exchange? Entity.gas (fun _ => rfl), fm_none Entity.exchange? Entity.kinetics (fun _ => rfl), fm_none Entity.exchange? Entity.pp (fun _ => rfl), fm_none Entity.exchange? Entity.ss (fun _ => rfl), fm_none Entity.exchange? Entity.surface (fun _ => rfl), fm_none Entity.exchange? Entity.temperature (fun _ => rfl), fm_none Entity.exchange? Entity.pressure (fun _ => rfl),
      List.nil_append, List.append_nil, ite_self]

/-- The reactant if it is of this kind. -/
def Entity.gas? : Entity → Option GasPhase
  | .gas x => some x
  | _ => none

theorem store_gases (es : List Entity) (m : Cells) :
    (es.foldl Cells.store m).gases = (es.filterMap Entity.gas?).foldl
      (fun m x => OMap.insert m x.head.nUser x) m.gases := by
  induction es generalizing m with
  | nil => rfl
  | cons e es ih =>
    simp only [List.foldl_cons, ih]
    cases e <;> rfl

theorem received_gases (es : List Entity) :
    (es.map Entity.received).filterMap Entity.gas? = (es.filterMap Entity.gas?).map GasPhase.received := by
  induction es with
  | nil => rfl
  | cons e es ih => 
    cases e <;> simp only [List.map_cons, Entity.received, List.filterMap_cons, Entity.gas?, ih]

theorem entities_gases (m : Cells) (t p : Bool) (ks : List Int) :
    (ks.flatMap (m.entities t p)).filterMap Entity.gas?
      = ks.flatMap (fun k => (find m.gases k).toList) := by
  induction ks with
  | nil => rfl
  | cons k ks ih =>
    simp only [List.flatMap_cons, List.filterMap_append, ih]
    congr 1
    unfold Cells.entities
    simp only [List.filterMap_append, fm_if, fm_none Entity.gas? Entity.solution (fun _ => rfl), fm_none Entity.gas? Entity.exchange (fun _ => rfl), fm_same Entity.gas? Entity.gas (fun _ => rfl), fm_none Entity.gas? Entity.kinetics (fun _ => rfl), fm_none Entity.gas? Entity.pp (fun _ => rfl), fm_none Entity.gas? Entity.ss (fun _ => rfl), fm_none Entity.gas? Entity.surface (fun _ => rfl), fm_none Entity.gas? Entity.temperature (fun _ => rfl), fm_none Entity.gas? Entity.pressure (fun _ => rfl),
      List.nil_append, List.append_nil, ite_self]

/-- The reactant if it is of this kind. -/
def Entity.kinetics? : Entity → Option Kinetics
  | .kinetics x => some x
  | _ => none

theorem store_kinetics (es : List Entity) (m : Cells) :
    (es.foldl Cells.store m).kinetics = (es.filterMap Entity.kinetics?).foldl
      (fun m x => OMap.insert m x.head.nUser x) m.kinetics := by
  induction es generalizing m with
  | nil => rfl
  | cons e es ih =>
    simp only [List.foldl_cons, ih]
    cases e <;> rfl

theorem received_kinetics (es : List Entity) :
    (es.map Entity.received).filterMap Entity.kinetics? = (es.filterMap Entity.kinetics?).map Kinetics.received := by
  induction es with
  | nil => rfl
  | cons e es ih => 
    cases e <;> simp only [List.map_cons, Entity.received, List.filterMap_cons, Entity.kinetics?, ih]

theorem entities_kinetics (m : Cells) (t p : Bool) (ks : List Int) :
    (ks.flatMap (m.entities t p)).filterMap Entity.kinetics?
      = ks.flatMap (fun k => (find m.kinetics k).toList) := by
  induction ks with
  | nil => rfl
  | cons k ks ih =>
    simp only [List.flatMap_cons, List.filterMap_append, ih]
    congr 1
    unfold Cells.entities
    simp only [List.filterMap_append, fm_if, fm_none Entity.kinetics? Entity.solution (fun _ => rfl), fm_none Entity.kinetics? Entity.exchange (fun _ => rfl), fm_none Entity.kinetics? Entity.gas (fun _ => rfl), fm_same Entity.kinetics? Entity.kinetics (fun _ => rfl), fm_none Entity.kinetics? Entity.pp (fun _ => rfl), fm_none Entity.kinetics? Entity.ss (fun _ => rfl), fm_none Entity.kinetics? Entity.surface (fun _ => rfl), fm_none Entity.kinetics? Entity.temperature (fun _ => rfl), fm_none Entity.kinetics? Entity.pressure (fun _ => rfl),
      List.nil_append, List.append_nil, ite_self]

/-- The reactant if it is of this kind. -/
def Entity.pp? : Entity → Option PPAssemblage
  | .pp x => some x
  | _ => none

theorem store_pps (es : List Entity) (m : Cells) :
    (es.foldl Cells.store m).pps = (es.filterMap Entity.pp?).foldl
      (fun m x => OMap.insert m x.head.nUser x) m.pps := by
  induction es generalizing m with
  | nil => rfl
  | cons e es ih =>
    simp only [List.foldl_cons, ih]
    cases e <;> rfl

theorem received_pps (es : List Entity) :
    (es.map Entity.received).filterMap Entity.pp? = (es.filterMap Entity.pp?).map PPAssemblage.received := by
  induction es with
  | nil => rfl
  | cons e es ih => 
    cases e <;> simp only [List.map_cons, Entity.received, List.filterMap_cons, Entity.pp?, ih]

theorem entities_pps (m : Cells) (t p : Bool) (ks : List Int) :
    (ks.flatMap (m.entities t p)).filterMap Entity.pp?
      = ks.flatMap (fun k => (find m.pps k).toList) := by
  induction ks with
  | nil => rfl
  | cons k ks ih =>
    simp only [List.flatMap_cons, List.filterMap_append, ih]
    congr 1
    unfold Cells.entities
    simp only [List.filterMap_append, fm_if, fm_none Entity.pp? Entity.solution (fun _ => rfl), fm_none Entity.pp? Entity.exchange (fun _ => rfl), fm_none Entity.pp? Entity.gas (fun _ => rfl), fm_none Entity.pp? Entity.kinetics (fun _ => rfl), fm_same Entity.pp? Entity.pp (fun _ => rfl), fm_none Entity.pp? Entity.ss (fun _ => rfl), fm_none Entity.pp? Entity.surface (fun _ => rfl), fm_none Entity.pp? Entity.temperature (fun _ => rfl), fm_none Entity.pp? Entity.pressure (fun _ => rfl),
      List.nil_append, List.append_nil, ite_self]

/-- The reactant if it is of this kind. -/
def Entity.ss? : Entity → Option SSAssemblage
  | .ss x => some x
  | _ => none

theorem store_sss (es : List Entity) (m : Cells) :
    (es.foldl Cells.store m).sss = (es.filterMap Entity.ss?).foldl
      (fun m x => OMap.insert m x.head.nUser x) m.sss := by
  induction es generalizing m with
  | nil => rfl
  | cons e es ih =>
    simp only [List.foldl_cons, ih]
    cases e <;> rfl

theorem received_sss (es : List Entity) :
    (es.map Entity.received).filterMap Entity.ss? = (es.filterMap Entity.ss?).map SSAssemblage.received := by
  induction es with
  | nil => rfl
  | cons e es ih => 
    cases e <;> simp only [List.map_cons, Entity.received, List.filterMap_cons, Entity.ss?, ih]

theorem entities_sss (m : Cells) (t p : Bool) (ks : List Int) :
    (ks.flatMap (m.entities t p)).filterMap Entity.ss?
      = ks.flatMap (fun k => (find m.sss k).toList) := by
  induction ks with
  | nil => rfl
  | cons k ks ih =>
    simp only [List.flatMap_cons, List.filterMap_append, ih]
    congr 1
    unfold Cells.entities
    simp only [List.filterMap_append, fm_if, fm_none Entity.ss? Entity.solution (fun _ => rfl), fm_none Entity.ss? Entity.exchange (fun _ => rfl), fm_none Entity.ss? Entity.gas (fun _ => rfl), fm_none Entity.ss? Entity.kinetics (fun _ => rfl), fm_none Entity.ss? Entity.pp (fun _ => rfl), fm_same Entity.ss? Entity.ss (fun _ => rfl), fm_none Entity.ss? Entity.surface (fun _ => rfl), fm_none Entity.ss? Entity.temperature (fun _ => rfl), fm_none Entity.ss? Entity.pressure (fun _ => rfl),
      List.nil_append, List.append_nil, ite_self]

/-- The reactant if it is of this kind. -/
def Entity.surface? : Entity → Option Surface
  | .surface x => some x
  | _ => none

theorem store_surfaces (es : List Entity) (m : Cells) :
    (es.foldl Cells.store m).surfaces = (es.filterMap Entity.surface?).foldl
      (fun m x => OMap.insert m x.head.nUser x) m.surfaces := by
  induction es generalizing m with
  | nil => rfl
  | cons e es ih =>
    simp only [List.foldl_cons, ih]
    cases e <;> rfl

theorem received_surfaces (es : List Entity) :
    (es.map Entity.received).filterMap Entity.surface? = (es.filterMap Entity.surface?).map Surface.received := by
  induction es with
  | nil => rfl
  | cons e es ih => 
    cases e <;> simp only [List.map_cons, Entity.received, List.filterMap_cons, Entity.surface?, ih]

theorem entities_surfaces (m : Cells) (t p : Bool) (ks : List Int) :
    (ks.flatMap (m.entities t p)).filterMap Entity.surface?
      = ks.flatMap (fun k => (find m.surfaces k).toList) := by
  induction ks with
  | nil => rfl
  | cons k ks ih =>
    simp only [List.flatMap_cons, List.filterMap_append, ih]
    congr 1
    unfold Cells.entities
    simp only [List.filterMap_append, fm_if, fm_none Entity.surface? Entity.solution (fun _ => rfl), fm_none Entity.surface? Entity.exchange (fun _ => rfl), fm_none Entity.surface? Entity.gas (fun _ => rfl), fm_none Entity.surface? Entity.kinetics (fun _ => rfl), fm_none Entity.surface? Entity.pp (fun _ => rfl), fm_none Entity.surface? Entity.ss (fun _ => rfl), fm_same Entity.surface? Entity.surface (fun _ => rfl), fm_none Entity.surface? Entity.temperature (fun _ => rfl), fm_none Entity.surface? Entity.pressure (fun _ => rfl),
      List.nil_append, List.append_nil, ite_self]

/-- The reactant if it is of this kind. -/
def Entity.temperature? : Entity → Option StepList
  | .temperature x => some x
  | _ => none

theorem store_temperatures (es : List Entity) (m : Cells) :
    (es.foldl Cells.store m).temperatures = (es.filterMap Entity.temperature?).foldl
      (fun m x => OMap.insert m x.head.nUser x) m.temperatures := by
  induction es generalizing m with
  | nil => rfl
  | cons e es ih =>
    simp only [List.foldl_cons, ih]
    cases e <;> rfl

theorem received_temperatures (es : List Entity) :
    (es.map Entity.received).filterMap Entity.temperature? = (es.filterMap Entity.temperature?).map StepList.received := by
  induction es with
  | nil => rfl
  | cons e es ih => 
    cases e <;> simp only [List.map_cons, Entity.received, List.filterMap_cons, Entity.temperature?, ih]

theorem entities_temperatures (m : Cells) (t p : Bool) (ks : List Int) :
    (ks.flatMap (m.entities t p)).filterMap Entity.temperature?
      = ks.flatMap (fun k => if t then (find m.temperatures k).toList else []) := by
  induction ks with
  | nil => rfl
  | cons k ks ih =>
    simp only [List.flatMap_cons, List.filterMap_append, ih]
    congr 1
    unfold Cells.entities
    simp only [List.filterMap_append, fm_if, fm_none Entity.temperature? Entity.solution (fun _ => rfl), fm_none Entity.temperature? Entity.exchange (fun _ => rfl), fm_none Entity.temperature? Entity.gas (fun _ => rfl), fm_none Entity.temperature? Entity.kinetics (fun _ => rfl), fm_none Entity.temperature? Entity.pp (fun _ => rfl), fm_none Entity.temperature? Entity.ss (fun _ => rfl), fm_none Entity.temperature? Entity.surface (fun _ => rfl), fm_same Entity.temperature? Entity.temperature (fun _ => rfl), fm_none Entity.temperature? Entity.pressure (fun _ => rfl),
      List.nil_append, List.append_nil, ite_self]

/-- The reactant if it is of this kind. -/
def Entity.pressure? : Entity → Option StepList
  | .pressure x => some x
  | _ => none

theorem store_pressures (es : List Entity) (m : Cells) :
    (es.foldl Cells.store m).pressures = (es.filterMap Entity.pressure?).foldl
      (fun m x => OMap.insert m x.head.nUser x) m.pressures := by
  induction es generalizing m with
  | nil => rfl
  | cons e es ih =>
    simp only [List.foldl_cons, ih]
    cases e <;> rfl

theorem received_pressures (es : List Entity) :
    (es.map Entity.received).filterMap Entity.pressure? = (es.filterMap Entity.pressure?).map StepList.received := by
  induction es with
  | nil => rfl
  | cons e es ih => 
    cases e <;> simp only [List.map_cons, Entity.received, List.filterMap_cons, Entity.pressure?, ih]

theorem entities_pressures (m : Cells) (t p : Bool) (ks : List Int) :
    (ks.flatMap (m.entities t p)).filterMap Entity.pressure?
      = ks.flatMap (fun k => if p then (find m.pressures k).toList else []) := by
  induction ks with
  | nil => rfl
  | cons k ks ih =>
    simp only [List.flatMap_cons, List.filterMap_append, ih]
    congr 1
    unfold Cells.entities
    simp only [List.filterMap_append, fm_if, fm_none Entity.pressure? Entity.solution (fun _ => rfl), fm_none Entity.pressure? Entity.exchange (fun _ => rfl), fm_none Entity.pressure? Entity.gas (fun _ => rfl), fm_none Entity.pressure? Entity.kinetics (fun _ => rfl), fm_none Entity.pressure? Entity.pp (fun _ => rfl), fm_none Entity.pressure? Entity.ss (fun _ => rfl), fm_none Entity.pressure? Entity.surface (fun _ => rfl), fm_none Entity.pressure? Entity.temperature (fun _ => rfl), fm_same Entity.pressure? Entity.pressure (fun _ => rfl),
      List.nil_append, List.append_nil, ite_self]

end Verif.Serial
