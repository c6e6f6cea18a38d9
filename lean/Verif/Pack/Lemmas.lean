import Verif.Pack.Model

namespace Verif.Pack

open Verif.OMap Verif.Serial

/-! ## One entity -/

/-- The names of an entity can be sent. -/
def Entity.Good : Entity → Prop
  | .solution x    => x.Good
  | .exchange x    => x.Good
  | .gasPhase x    => x.Good
  | .kinetics x    => x.Good
  | .pp x          => x.Good
  | .ss x          => x.Good
  | .surface x     => x.Good
  | .temperature _ => True
  | .pressure _    => True

/-- What arrives of an entity. -/
def Entity.received : Entity → Entity
  | .solution x    => .solution x.received
  | .exchange x    => .exchange x.received
  | .gasPhase x    => .gasPhase x.received
  | .kinetics x    => .kinetics x.received
  | .pp x          => .pp x.received
  | .ss x          => .ss x.received
  | .surface x     => .surface x.received
  | .temperature x => .temperature x.received
  | .pressure x    => .pressure x.received

theorem carries_Entity : Carries putEntity getEntity Entity.Good Entity.received := by
  have key : ∀ {α : Type} (t : Int) {p : Put α} {g : Get α} {P : α → Prop} {r : α → α}
      (c : α → Entity), Carries p g P r →
      (∀ d s, getEntity d ⟨t :: s.ints, s.dbls⟩ = getVia c g d s) →
      ∀ x, P x → ∀ d : Dict, d.WF →
        (putTagged t p x d).1.WF ∧ d.Le (putTagged t p x d).1 ∧
        (d.Sendable → (putTagged t p x d).1.Sendable) ∧
        ∀ d', (putTagged t p x d).1.Le d' → ∀ s : Stream,
          getEntity d' ⟨(putTagged t p x d).2.1 ++ s.ints, (putTagged t p x d).2.2 ++ s.dbls⟩ =
            .ok (c (r x), s) := by
    intro α t p g P r c h hg x hx d hd
    obtain ⟨b1, b2, b3, b4⟩ := h x hx d hd
    refine ⟨b1, b2, b3, fun d' hle s => ?_⟩
    have e := b4 d' hle s
    have e2 := hg d' ⟨(p x d).2.1 ++ s.ints, (p x d).2.2 ++ s.dbls⟩
    simp only [putTagged, putVia, putPair, putInt, List.cons_append, List.nil_append]
    simp only at e2
    rw [e2, getVia, e]
  intro e he d hd
  cases e with
  | solution x => exact key 0 .solution carries_Solution (fun _ _ => rfl) x he d hd
  | exchange x => exact key 1 .exchange carries_Exchange (fun _ _ => rfl) x he d hd
  | gasPhase x => exact key 2 .gasPhase carries_GasPhase (fun _ _ => rfl) x he d hd
  | kinetics x => exact key 3 .kinetics carries_Kinetics (fun _ _ => rfl) x he d hd
  | pp x => exact key 4 .pp carries_PPAssemblage (fun _ _ => rfl) x he d hd
  | ss x => exact key 5 .ss carries_SSAssemblage (fun _ _ => rfl) x he d hd
  | surface x => exact key 6 .surface carries_Surface (fun _ _ => rfl) x he d hd
  | temperature x => exact key 7 .temperature carries_Temperature (fun _ _ => rfl) x he d hd
  | pressure x => exact key 8 .pressure carries_Pressure (fun _ _ => rfl) x he d hd

theorem putEntity_ints_ne (e : Entity) (d : Dict) : (putEntity e d).2.1 ≠ [] := by
  cases e <;> simp [putEntity, putTagged, putVia, putPair, putInt]

/-! ## Messages -/

theorem putAll_append {α : Type} (p : Put α) (a b : List α) (d : Dict) :
    putAll p (a ++ b) d =
      ((putAll p b (putAll p a d).1).1,
       (putAll p a d).2.1 ++ (putAll p b (putAll p a d).1).2.1,
       (putAll p a d).2.2 ++ (putAll p b (putAll p a d).1).2.2) := by
  induction a generalizing d with
  | nil => rfl
  | cons x a ih =>
    simp only [List.cons_append, putAll]
    rw [ih]
    simp

theorem serialize_one (w : Cells) (t p : Bool) (k : Int) (m : Message) :
    m.serialize w t p k k =
      ⟨(putAll putEntity (w.found t p k) m.dict).1,
       m.ints ++ (putAll putEntity (w.found t p k) m.dict).2.1,
       m.dbls ++ (putAll putEntity (w.found t p k) m.dict).2.2⟩ := by
  simp [Message.serialize, List.range_succ]

theorem foldl_serialize (w : Cells) (t p : Bool) (ks : List Int) (m : Message) :
    ks.foldl (fun m k => m.serialize w t p k k) m =
      ⟨(putAll putEntity (ks.flatMap (w.found t p)) m.dict).1,
       m.ints ++ (putAll putEntity (ks.flatMap (w.found t p)) m.dict).2.1,
       m.dbls ++ (putAll putEntity (ks.flatMap (w.found t p)) m.dict).2.2⟩ := by
  induction ks generalizing m with
  | nil => simp [putAll]
  | cons k ks ih =>
    simp only [List.foldl_cons, List.flatMap_cons]
    rw [ih, serialize_one, putAll_append]
    simp

theorem length_le_ints (es : List Entity) (d : Dict) :
    es.length ≤ (putAll putEntity es d).2.1.length := by
  induction es generalizing d with
  | nil => simp
  | cons e es ih =>
    have h1 := ih (putEntity e d).1
    have h2 : 0 < (putEntity e d).2.1.length := List.length_pos_iff.mpr (putEntity_ints_ne e d)
    simp only [putAll, List.length_cons, List.length_append]
    omega

theorem unpack_step {n : Nat} {d : Dict} {s s' : Stream} {e : Entity} {u : Cells}
    (hs : s.ints ≠ []) (h : getEntity d s = .ok (e, s')) :
    unpack (n + 1) d s u = unpack n d s' (u.store e) := by
  simp only [unpack, if_neg hs, h]

theorem unpack_all (es : List Entity) (hes : ∀ e ∈ es, e.Good) (d : Dict) (hd : d.WF) (d' : Dict)
    (hle : (putAll putEntity es d).1.Le d') (n : Nat) (hn : es.length ≤ n) (u : Cells) :
    unpack n d' ⟨(putAll putEntity es d).2.1, (putAll putEntity es d).2.2⟩ u =
      .ok ((es.map Entity.received).foldl Cells.store u) := by
  induction es generalizing d n u with
  | nil => cases n <;> simp [unpack, putAll]
  | cons e es ih =>
    obtain ⟨n, rfl⟩ : ∃ m, n = m + 1 := ⟨n - 1, by simp only [List.length_cons] at hn; omega⟩
    obtain ⟨a1, a2, a4, a3⟩ := carries_Entity e (hes e List.mem_cons_self) d hd
    obtain ⟨b1, b2, _, _⟩ := carries_all carries_Entity es
      (fun x hx => hes x (List.mem_cons_of_mem _ hx)) _ a1
    have e1 := a3 d' (b2.trans hle)
      ⟨(putAll putEntity es (putEntity e d).1).2.1, (putAll putEntity es (putEntity e d).1).2.2⟩
    simp only at e1
    simp only [putAll]
    rw [unpack_step (by simp [putEntity_ints_ne]) e1]
    simp only [List.map_cons, List.foldl_cons]
    exact ih (fun x hx => hes x (List.mem_cons_of_mem _ hx)) _ a1 hle n
      (by simp only [List.length_cons] at hn; omega) _

/-! ## What the stores do -/

/-- `keep` for an entity that may be missing. -/
def keepOpt {α : Type} (f : Int → Option α) (num : α → Int) : Option α → Int → Option α
  | some x => keep f num x
  | none   => f

theorem foldl_found (w u : Cells) (t p : Bool) (k : Int) :
    ((w.found t p k).map Entity.received).foldl Cells.store u =
      { solution := keepOpt u.solution Solution.nUser ((w.solution k).map Solution.received)
        exchange := keepOpt u.exchange Exchange.nUser ((w.exchange k).map Exchange.received)
        gasPhase := keepOpt u.gasPhase GasPhase.nUser ((w.gasPhase k).map GasPhase.received)
        kinetics := keepOpt u.kinetics Kinetics.nUser ((w.kinetics k).map Kinetics.received)
        pp := keepOpt u.pp PPAssemblage.nUser ((w.pp k).map PPAssemblage.received)
        ss := keepOpt u.ss SSAssemblage.nUser ((w.ss k).map SSAssemblage.received)
        surface := keepOpt u.surface Surface.nUser ((w.surface k).map Surface.received)
        temperature := keepOpt u.temperature Temperature.nUser
          (if t then (w.temperature k).map Temperature.received else none)
        pressure := keepOpt u.pressure Pressure.nUser
          (if p then (w.pressure k).map Pressure.received else none) } := by
  simp only [Cells.found, List.map_append, List.foldl_append]
  have h1 : ∀ (u : Cells) (o : Option Solution),
      ((o.toList.map Entity.solution).map Entity.received).foldl Cells.store u =
        { u with solution := keepOpt u.solution Solution.nUser (o.map Solution.received) } := by
    intro u o; cases o <;> rfl
  have h2 : ∀ (u : Cells) (o : Option Exchange),
      ((o.toList.map Entity.exchange).map Entity.received).foldl Cells.store u =
        { u with exchange := keepOpt u.exchange Exchange.nUser (o.map Exchange.received) } := by
    intro u o; cases o <;> rfl
  have h3 : ∀ (u : Cells) (o : Option GasPhase),
      ((o.toList.map Entity.gasPhase).map Entity.received).foldl Cells.store u =
        { u with gasPhase := keepOpt u.gasPhase GasPhase.nUser (o.map GasPhase.received) } := by
    intro u o; cases o <;> rfl
  have h4 : ∀ (u : Cells) (o : Option Kinetics),
      ((o.toList.map Entity.kinetics).map Entity.received).foldl Cells.store u =
        { u with kinetics := keepOpt u.kinetics Kinetics.nUser (o.map Kinetics.received) } := by
    intro u o; cases o <;> rfl
  have h5 : ∀ (u : Cells) (o : Option PPAssemblage),
      ((o.toList.map Entity.pp).map Entity.received).foldl Cells.store u =
        { u with pp := keepOpt u.pp PPAssemblage.nUser (o.map PPAssemblage.received) } := by
    intro u o; cases o <;> rfl
  have h6 : ∀ (u : Cells) (o : Option SSAssemblage),
      ((o.toList.map Entity.ss).map Entity.received).foldl Cells.store u =
        { u with ss := keepOpt u.ss SSAssemblage.nUser (o.map SSAssemblage.received) } := by
    intro u o; cases o <;> rfl
  have h7 : ∀ (u : Cells) (o : Option Surface),
      ((o.toList.map Entity.surface).map Entity.received).foldl Cells.store u =
        { u with surface := keepOpt u.surface Surface.nUser (o.map Surface.received) } := by
    intro u o; cases o <;> rfl
  have h8 : ∀ (u : Cells) (o : Option Temperature),
      ((if t then o.toList.map Entity.temperature else []).map Entity.received).foldl
          Cells.store u =
        { u with temperature := keepOpt u.temperature Temperature.nUser
                   (if t then o.map Temperature.received else none) } := by
    intro u o; cases t <;> cases o <;> rfl
  have h9 : ∀ (u : Cells) (o : Option Pressure),
      ((if p then o.toList.map Entity.pressure else []).map Entity.received).foldl
          Cells.store u =
        { u with pressure := keepOpt u.pressure Pressure.nUser
                   (if p then o.map Pressure.received else none) } := by
    intro u o; cases p <;> cases o <;> rfl
  rw [h1, h2, h3, h4, h5, h6, h7, h8, h9]

/-- Looking up after the stores of a list of cells, for one kind: `f` is the receiving side,
`g` what arrives for each cell. -/
theorem foldl_keepOpt {α : Type} (num : α → Int) (g : Int → Option α) (ks : List Int)
    (hg : ∀ k ∈ ks, ∀ x, g k = some x → num x = k) (f : Int → Option α) (n : Int) :
    (ks.foldl (fun f k => keepOpt f num (g k)) f) n =
      if n ∈ ks ∧ (g n).isSome then g n else f n := by
  induction ks generalizing f with
  | nil => simp
  | cons k ks ih =>
    simp only [List.foldl_cons]
    rw [ih (fun j hj => hg j (List.mem_cons_of_mem _ hj))]
    by_cases h : n ∈ ks ∧ (g n).isSome
    · rw [if_pos h, if_pos ⟨List.mem_cons_of_mem _ h.1, h.2⟩]
    · rw [if_neg h]
      cases hk : g k with
      | none =>
        simp only [keepOpt]
        rw [if_neg]
        rintro ⟨h1, h2⟩
        rcases List.mem_cons.mp h1 with rfl | h1
        · rw [hk] at h2; simp at h2
        · exact h ⟨h1, h2⟩
      | some x =>
        have hx := hg k List.mem_cons_self x hk
        simp only [keepOpt, keep, hx]
        by_cases e : n = k
        · subst e
          simp [hk]
        · rw [if_neg e, if_neg]
          rintro ⟨h1, h2⟩
          rcases List.mem_cons.mp h1 with rfl | h1
          · exact e rfl
          · exact h ⟨h1, h2⟩

/-- The stores of a list of cells, kind by kind. -/
theorem foldl_cells (w : Cells) (t p : Bool) (ks : List Int) (u : Cells) :
    ((ks.flatMap (w.found t p)).map Entity.received).foldl Cells.store u =
      { solution := ks.foldl (fun f k => keepOpt f Solution.nUser
          ((w.solution k).map Solution.received)) u.solution
        exchange := ks.foldl (fun f k => keepOpt f Exchange.nUser
          ((w.exchange k).map Exchange.received)) u.exchange
        gasPhase := ks.foldl (fun f k => keepOpt f GasPhase.nUser
          ((w.gasPhase k).map GasPhase.received)) u.gasPhase
        kinetics := ks.foldl (fun f k => keepOpt f Kinetics.nUser
          ((w.kinetics k).map Kinetics.received)) u.kinetics
        pp := ks.foldl (fun f k => keepOpt f PPAssemblage.nUser
          ((w.pp k).map PPAssemblage.received)) u.pp
        ss := ks.foldl (fun f k => keepOpt f SSAssemblage.nUser
          ((w.ss k).map SSAssemblage.received)) u.ss
        surface := ks.foldl (fun f k => keepOpt f Surface.nUser
          ((w.surface k).map Surface.received)) u.surface
        temperature := ks.foldl (fun f k => keepOpt f Temperature.nUser
          (if t then (w.temperature k).map Temperature.received else none)) u.temperature
        pressure := ks.foldl (fun f k => keepOpt f Pressure.nUser
          (if p then (w.pressure k).map Pressure.received else none)) u.pressure } := by
  induction ks generalizing u with
  | nil => rfl
  | cons k ks ih =>
    simp only [List.flatMap_cons, List.map_append, List.foldl_append]
    rw [foldl_found, ih]
    rfl

/-! ## The number of turns -/

/-- A reader never gives integers back. -/
def Shrinks {α : Type} (g : Get α) : Prop :=
  ∀ d s a s', g d s = .ok (a, s') → s'.ints.length ≤ s.ints.length

theorem shrinks_int : Shrinks getInt := by
  intro d s a s' h
  obtain ⟨i, x⟩ := s
  cases i with
  | nil => simp [getInt] at h
  | cons y l =>
    simp only [getInt, Out.ok.injEq, Prod.mk.injEq] at h
    obtain ⟨_, rfl⟩ := h
    simp

theorem shrinks_dbl : Shrinks getDbl := by
  intro d s a s' h
  obtain ⟨i, x⟩ := s
  cases x with
  | nil => simp [getDbl] at h
  | cons y l =>
    simp only [getDbl, Out.ok.injEq, Prod.mk.injEq] at h
    obtain ⟨_, rfl⟩ := h
    simp

theorem shrinks_via {α β : Type} {f : α → β} {g : Get α} (h : Shrinks g) :
    Shrinks (getVia f g) := by
  intro d s a s' e
  simp only [getVia] at e
  split at e
  · rename_i b s1 hb
    simp only [Out.ok.injEq, Prod.mk.injEq] at e
    obtain ⟨_, rfl⟩ := e
    exact h _ _ _ _ hb
  · cases e
  · cases e

theorem shrinks_bool : Shrinks getBool := by
  intro d s a s' e
  simp only [getBool] at e
  split at e
  · rename_i b s1 hb
    simp only [Out.ok.injEq, Prod.mk.injEq] at e
    obtain ⟨_, rfl⟩ := e
    exact shrinks_int _ _ _ _ hb
  · cases e
  · cases e

theorem shrinks_word : Shrinks getWord := by
  intro d s a s' e
  simp only [getWord] at e
  split at e
  · rename_i b s1 hb
    split at e
    · cases e
    · split at e
      · simp only [Out.ok.injEq, Prod.mk.injEq] at e
        obtain ⟨_, rfl⟩ := e
        exact shrinks_int _ _ _ _ hb
      · cases e
  · cases e
  · cases e

theorem shrinks_pair {α β : Type} {g : Get α} {h : Get β} (hg : Shrinks g) (hh : Shrinks h) :
    Shrinks (getPair g h) := by
  intro d s a s' e
  simp only [getPair] at e
  split at e
  · rename_i b s1 hb
    split at e
    · rename_i c s2 hc
      simp only [Out.ok.injEq, Prod.mk.injEq] at e
      obtain ⟨_, rfl⟩ := e
      exact le_trans (hh _ _ _ _ hc) (hg _ _ _ _ hb)
    · cases e
    · cases e
  · cases e
  · cases e

theorem shrinks_N {α : Type} {g : Get α} (hg : Shrinks g) (n : Nat) : Shrinks (getN g n) := by
  induction n with
  | zero =>
    intro d s a s' e
    simp only [getN, Out.ok.injEq, Prod.mk.injEq] at e
    obtain ⟨_, rfl⟩ := e
    exact le_refl _
  | succ n ih =>
    intro d s a s' e
    simp only [getN] at e
    split at e
    · rename_i b s1 hb
      split at e
      · rename_i c s2 hc
        simp only [Out.ok.injEq, Prod.mk.injEq] at e
        obtain ⟨_, rfl⟩ := e
        exact le_trans (ih _ _ _ _ hc) (hg _ _ _ _ hb)
      · cases e
      · cases e
    · cases e
    · cases e

theorem shrinks_vec {α : Type} {g : Get α} (hg : Shrinks g) : Shrinks (getVec g) := by
  intro d s a s' e
  simp only [getVec] at e
  split at e
  · rename_i b s1 hb
    exact le_trans (shrinks_N hg _ _ _ _ _ e) (shrinks_int _ _ _ _ hb)
  · cases e
  · cases e

theorem shrinks_entry : Shrinks getEntry := by
  intro d s a s' e
  simp only [getEntry] at e
  split at e
  · rename_i b s1 hb
    split at e
    · split at e
      · rename_i c s2 hc
        simp only [Out.ok.injEq, Prod.mk.injEq] at e
        obtain ⟨_, rfl⟩ := e
        exact le_trans (shrinks_dbl _ _ _ _ hc) (shrinks_word _ _ _ _ hb)
      · cases e
      · cases e
    · simp only [Out.ok.injEq, Prod.mk.injEq] at e
      obtain ⟨_, rfl⟩ := e
      exact shrinks_word _ _ _ _ hb
  · cases e
  · cases e

theorem shrinks_ND : Shrinks getND := shrinks_via (shrinks_vec shrinks_entry)

theorem shrinks_intMap : Shrinks getIntMap :=
  shrinks_via (shrinks_vec (shrinks_pair shrinks_int shrinks_dbl))

macro "shrinks" : tactic => `(tactic| repeat' first
  | exact shrinks_int | exact shrinks_dbl | exact shrinks_bool | exact shrinks_word
  | exact shrinks_ND | exact shrinks_intMap | assumption
  | apply shrinks_pair | apply shrinks_vec | apply shrinks_via)

theorem shrinks_Solution : Shrinks getSolution := by
  have : Shrinks getIsotopes := by unfold getIsotopes getIsotope; shrinks
  unfold getSolution; shrinks

theorem shrinks_Exchange : Shrinks getExchange := by unfold getExchange getExchComp; shrinks

theorem shrinks_GasPhase : Shrinks getGasPhase := by
  have : Shrinks getGasType := by unfold getGasType; shrinks
  unfold getGasPhase getGasComp; shrinks

theorem shrinks_Kinetics : Shrinks getKinetics := by unfold getKinetics getKinComp; shrinks

theorem shrinks_PPAssemblage : Shrinks getPPAssemblage := by
  have : Shrinks getPPComps := by unfold getPPComps getKeyed getPPComp; shrinks
  unfold getPPAssemblage; shrinks

theorem shrinks_SSAssemblage : Shrinks getSSAssemblage := by
  have : Shrinks getSSs := by unfold getSSs getKeyed getSS getSSComp; shrinks
  unfold getSSAssemblage; shrinks

theorem shrinks_Surface : Shrinks getSurface := by
  have : Shrinks getGMap := by unfold getGMap getSurfDL; shrinks
  unfold getSurface getSurfComp getSurfCharge; shrinks

theorem shrinks_Temperature : Shrinks getTemperature := by unfold getTemperature; shrinks

theorem shrinks_Pressure : Shrinks getPressure := by unfold getPressure; shrinks

/-- Every turn of the loop uses up at least the type. -/
theorem getEntity_shorter {d : Dict} {s s' : Stream} {e : Entity}
    (h : getEntity d s = .ok (e, s')) : s'.ints.length < s.ints.length := by
  obtain ⟨i, x⟩ := s
  cases i with
  | nil => simp [getEntity, getInt] at h
  | cons t l =>
    simp only [getEntity, getInt] at h
    have aux : ∀ {α : Type} {c : α → Entity} {g : Get α}, Shrinks g →
        getVia c g d ⟨l, x⟩ = .ok (e, s') → s'.ints.length < (t :: l).length := by
      intro α c g hg e'
      have := shrinks_via (f := c) hg _ _ _ _ e'
      simp only [List.length_cons] at this ⊢
      omega
    split_ifs at h
    · exact aux shrinks_Solution h
    · exact aux shrinks_Exchange h
    · exact aux shrinks_GasPhase h
    · exact aux shrinks_Kinetics h
    · exact aux shrinks_PPAssemblage h
    · exact aux shrinks_SSAssemblage h
    · exact aux shrinks_Surface h
    · exact aux shrinks_Temperature h
    · exact aux shrinks_Pressure h

/-- As many turns as there are integers are always enough: more turns change nothing. -/
theorem unpack_turns (n : Nat) (d : Dict) (s : Stream) (u : Cells) (h : s.ints.length ≤ n) :
    unpack n d s u = unpack s.ints.length d s u := by
  have gen : ∀ (n m : Nat) (s : Stream) (u : Cells), s.ints.length ≤ n → s.ints.length ≤ m →
      unpack n d s u = unpack m d s u := by
    intro n
    induction n with
    | zero =>
      intro m s u hn _
      have e : s.ints = [] := List.length_eq_zero_iff.mp (by omega)
      cases m <;> simp [unpack, e]
    | succ n ih =>
      intro m s u hn hm
      by_cases e : s.ints = []
      · cases m <;> simp [unpack, e]
      · have : 0 < s.ints.length := List.length_pos_iff.mpr e
        obtain ⟨m, rfl⟩ : ∃ k, m = k + 1 := ⟨m - 1, by omega⟩
        simp only [unpack, if_neg e]
        cases hg : getEntity d s with
        | throw => rfl
        | ub => rfl
        | ok a =>
          obtain ⟨x, s'⟩ := a
          have := getEntity_shorter hg
          exact ih m s' _ (by omega) (by omega)
  exact gen n _ s u h (le_refl _)

end Verif.Pack
