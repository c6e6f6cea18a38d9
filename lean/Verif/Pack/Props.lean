import Verif.Pack.Lemmas

/-!
# C59: packing cells for another process

The full statement, that the cells arrive unchanged, is false: `viscos_0_lost` and the theorems
after it. `cells_arrive_partial` says exactly what arrives.
-/

namespace Verif.Pack

open Verif.OMap Verif.Serial

/-- The cell `k` of `w` can be sent: every reactant in it carries the number `k` itself, and its
names contain no line break or NUL and are at most 255 characters long (`Serial.GoodWord`); name
lists contain no empty name. -/
structure Cells.Ready (w : Cells) (k : Int) : Prop where
  solution : ∀ x, w.solution k = some x → x.nUser = k ∧ x.Good
  exchange : ∀ x, w.exchange k = some x → x.nUser = k ∧ x.Good
  gasPhase : ∀ x, w.gasPhase k = some x → x.nUser = k ∧ x.Good
  kinetics : ∀ x, w.kinetics k = some x → x.nUser = k ∧ x.Good
  pp : ∀ x, w.pp k = some x → x.nUser = k ∧ x.Good
  ss : ∀ x, w.ss k = some x → x.nUser = k ∧ x.Good
  surface : ∀ x, w.surface k = some x → x.nUser = k ∧ x.Good

/-- Specification of a transfer for one kind of reactant: the cells in `ks` that have such a
reactant get `r` of it, everything else stays as it was. -/
def Arrives {α : Type} (ks : List Int) (r : α → α) (sent before after : Int → Option α) : Prop :=
  ∀ n, after n = if n ∈ ks ∧ (sent n).isSome then (sent n).map r else before n

theorem found_good {w : Cells} {k : Int} (h : w.Ready k) (e : Entity)
    (he : e ∈ w.found false false k) : e.Good := by
  simp only [Cells.found, List.mem_append, List.mem_map, Option.mem_toList,
    Bool.false_eq_true, if_false, List.not_mem_nil, or_false] at he
  rcases he with (((((he | he) | he) | he) | he) | he) | he <;> obtain ⟨x, hx, rfl⟩ := he
  · exact (h.solution x hx).2
  · exact (h.exchange x hx).2
  · exact (h.gasPhase x hx).2
  · exact (h.kinetics x hx).2
  · exact (h.pp x hx).2
  · exact (h.ss x hx).2
  · exact (h.surface x hx).2

theorem packed_ne_nil (es : List Entity) (x : Solution) (hx : Entity.solution x ∈ es) (d : Dict) :
    (putAll putEntity es d).2.1 ≠ [] ∧ (putAll putEntity es d).2.2 ≠ [] := by
  induction es generalizing d with
  | nil => cases hx
  | cons e es ih =>
    rcases List.mem_cons.mp hx with rfl | hx
    · simp [putAll, putEntity, putTagged, putSolution, putVia, putPair, putInt, putDbl, putBool]
    · obtain ⟨h1, h2⟩ := ih hx (putEntity e d).1
      simp [putAll, h1, h2]

/-- What the receiving process holds, in terms of the stores of all packed entities. -/
theorem receive_stores (w u : Cells) (ks : List Int)
    (hgood : ∀ k ∈ ks, ∀ e ∈ w.found false false k, e.Good)
    (hne : ∃ k ∈ ks, (w.solution k).isSome) :
    receive (packCells w ks) u =
      .ok (((ks.flatMap (w.found false false)).map Entity.received).foldl Cells.store u) := by
  obtain ⟨k, hk, hs⟩ := hne
  obtain ⟨x, hx⟩ := Option.isSome_iff_exists.mp hs
  have hmem : Entity.solution x ∈ ks.flatMap (w.found false false) :=
    List.mem_flatMap.mpr ⟨k, hk, by simp [Cells.found, hx]⟩
  obtain ⟨n1, n2⟩ := packed_ne_nil _ x hmem Dict.empty
  have hg : ∀ e ∈ ks.flatMap (w.found false false), e.Good := by
    intro e he
    obtain ⟨j, hj, he⟩ := List.mem_flatMap.mp he
    exact hgood j hj e he
  obtain ⟨h1, _, h3, _⟩ := carries_all carries_Entity _ hg Dict.empty Dict.wf_empty
  have hsend := h3 (by intro w hw; simp [Dict.empty] at hw)
  obtain ⟨_, hw⟩ := Dict.ofText_words h1 hsend
  have hp : packCells w ks =
      ⟨(putAll putEntity (ks.flatMap (w.found false false)) Dict.empty).1,
       (putAll putEntity (ks.flatMap (w.found false false)) Dict.empty).2.1,
       (putAll putEntity (ks.flatMap (w.found false false)) Dict.empty).2.2⟩ := by
    rw [packCells, foldl_serialize]
    simp [Message.empty]
  rw [hp, receive]
  simp only
  rw [if_neg (by simp [n1, n2]), deserialize]
  exact unpack_all _ hg Dict.empty Dict.wf_empty _
    (by unfold Dict.Le; rw [hw]; exact List.prefix_rfl) _ (length_le_ints _ _) u

/-- C59 (partial). Any list of cells packed with one serializer and unpacked in another process
arrives: every reactant of the seven kinds carried arrives in the cell it had, with every packed
member unchanged, and nothing else in the receiving process changes. Missing from the full
statement: the members reset by the `received` functions, the kinds not carried, and reactants
whose own number differs from their cell. -/
theorem cells_arrive_partial (w u : Cells) (ks : List Int) (h : ∀ k ∈ ks, w.Ready k)
    (hne : ∃ k ∈ ks, (w.solution k).isSome) :
    ∃ u', receive (packCells w ks) u = .ok u' ∧
      Arrives ks Solution.received w.solution u.solution u'.solution ∧
      Arrives ks Exchange.received w.exchange u.exchange u'.exchange ∧
      Arrives ks GasPhase.received w.gasPhase u.gasPhase u'.gasPhase ∧
      Arrives ks Kinetics.received w.kinetics u.kinetics u'.kinetics ∧
      Arrives ks PPAssemblage.received w.pp u.pp u'.pp ∧
      Arrives ks SSAssemblage.received w.ss u.ss u'.ss ∧
      Arrives ks Surface.received w.surface u.surface u'.surface ∧
      u'.temperature = u.temperature ∧ u'.pressure = u.pressure := by
  refine ⟨_, receive_stores w u ks (fun k hk e he => found_good (h k hk) e he) hne, ?_⟩
  rw [foldl_cells]
  have aux : ∀ {α : Type} (num : α → Int) (r : α → α) (hr : ∀ x, num (r x) = num x)
      (sent before : Int → Option α) (hn : ∀ k ∈ ks, ∀ x, sent k = some x → num x = k),
      Arrives ks r sent before
        (ks.foldl (fun f k => keepOpt f num ((sent k).map r)) before) := by
    intro α num r hr sent before hn n
    rw [foldl_keepOpt num (fun k => (sent k).map r)]
    · simp
    · intro k hk x hx
      obtain ⟨y, hy, rfl⟩ := Option.map_eq_some_iff.mp hx
      rw [hr, hn k hk y hy]
  refine ⟨?_, ?_, ?_, ?_, ?_, ?_, ?_, ?_, ?_⟩
  · exact aux Solution.nUser Solution.received (fun _ => rfl) _ _
      (fun k hk x hx => ((h k hk).solution x hx).1)
  · exact aux Exchange.nUser Exchange.received (fun _ => rfl) _ _
      (fun k hk x hx => ((h k hk).exchange x hx).1)
  · exact aux GasPhase.nUser GasPhase.received (fun _ => rfl) _ _
      (fun k hk x hx => ((h k hk).gasPhase x hx).1)
  · exact aux Kinetics.nUser Kinetics.received (fun _ => rfl) _ _
      (fun k hk x hx => ((h k hk).kinetics x hx).1)
  · exact aux PPAssemblage.nUser PPAssemblage.received (fun _ => rfl) _ _
      (fun k hk x hx => ((h k hk).pp x hx).1)
  · exact aux SSAssemblage.nUser SSAssemblage.received (fun _ => rfl) _ _
      (fun k hk x hx => ((h k hk).ss x hx).1)
  · exact aux Surface.nUser Surface.received (fun _ => rfl) _ _
      (fun k hk x hx => ((h k hk).surface x hx).1)
  · funext n
    have := foldl_keepOpt Temperature.nUser (fun _ => none) ks (by simp) u.temperature n
    simpa using this
  · funext n
    have := foldl_keepOpt Pressure.nUser (fun _ => none) ks (by simp) u.pressure n
    simpa using this

/-- C104. Moving cells: afterwards the sending process has none of them and keeps all its other
cells, and every cell moved is complete (up to the members not packed) in the receiving process,
whatever that process held before. -/
theorem move_partial (wold wnew : Cells) (ks : List Int) (h : ∀ k ∈ ks, wold.Ready k)
    (hne : ∃ k ∈ ks, (wold.solution k).isSome) :
    ∃ wold' wnew', moveCells ks wold wnew = .ok (wold', wnew') ∧
      (∀ k ∈ ks, wold'.solution k = none ∧ wold'.exchange k = none ∧ wold'.gasPhase k = none ∧
        wold'.kinetics k = none ∧ wold'.pp k = none ∧ wold'.ss k = none ∧
        wold'.surface k = none) ∧
      (∀ k, k ∉ ks → wold'.solution k = wold.solution k ∧ wold'.exchange k = wold.exchange k ∧
        wold'.gasPhase k = wold.gasPhase k ∧ wold'.kinetics k = wold.kinetics k ∧
        wold'.pp k = wold.pp k ∧ wold'.ss k = wold.ss k ∧ wold'.surface k = wold.surface k) ∧
      Arrives ks Solution.received wold.solution wnew.solution wnew'.solution ∧
      Arrives ks Exchange.received wold.exchange wnew.exchange wnew'.exchange ∧
      Arrives ks GasPhase.received wold.gasPhase wnew.gasPhase wnew'.gasPhase ∧
      Arrives ks Kinetics.received wold.kinetics wnew.kinetics wnew'.kinetics ∧
      Arrives ks PPAssemblage.received wold.pp wnew.pp wnew'.pp ∧
      Arrives ks SSAssemblage.received wold.ss wnew.ss wnew'.ss ∧
      Arrives ks Surface.received wold.surface wnew.surface wnew'.surface := by
  obtain ⟨u', h1, h2, h3, h4, h5, h6, h7, h8, _⟩ := cells_arrive_partial wold wnew ks h hne
  refine ⟨wold.deleteCells ks, u', by rw [moveCells, h1], ?_, ?_, h2, h3, h4, h5, h6, h7, h8⟩
  · intro k hk
    simp [Cells.deleteCells, hk]
  · intro k hk
    simp [Cells.deleteCells, hk]

/-! ## What is lost -/

/-- C59 fails: `viscos_0` of any solution is replaced by 1. -/
theorem viscos_0_lost (w u : Cells) (ks : List Int) (h : ∀ k ∈ ks, w.Ready k) (k : Int)
    (hk : k ∈ ks) (x : Solution) (hx : w.solution k = some x) :
    ∃ u' y, receive (packCells w ks) u = .ok u' ∧ u'.solution k = some y ∧ y.viscos0 = 1 := by
  obtain ⟨u', h1, h2, _⟩ := cells_arrive_partial w u ks h ⟨k, hk, by simp [hx]⟩
  refine ⟨u', x.received, h1, ?_, rfl⟩
  rw [h2 k, if_pos ⟨hk, by simp [hx]⟩, hx]
  rfl

/-- C59 fails: the switch for calculating the viscosity of the diffuse layer is off in every
surface that arrives. -/
theorem ddl_viscosity_lost (w u : Cells) (ks : List Int) (h : ∀ k ∈ ks, w.Ready k) (k : Int)
    (hk : k ∈ ks) (hs : (w.solution k).isSome) (x : Surface) (hx : w.surface k = some x) :
    ∃ u' y, receive (packCells w ks) u = .ok u' ∧ u'.surface k = some y ∧
      y.calcDDLViscosity = false ∧ ∀ c ∈ y.charges, c.zGMCDMap = [] := by
  obtain ⟨u', h1, _, _, _, _, _, _, h2, _⟩ := cells_arrive_partial w u ks h ⟨k, hk, hs⟩
  refine ⟨u', x.received, h1, ?_, rfl, ?_⟩
  · rw [h2 k, if_pos ⟨hk, by simp [hx]⟩, hx]
    rfl
  · intro c hc
    simp only [Surface.received, List.mem_map] at hc
    obtain ⟨c', _, rfl⟩ := hc
    rfl

/-- C59 fails: a temperature definition of a cell that moves is deleted and arrives nowhere. -/
theorem temperature_lost (wold wnew : Cells) (ks : List Int) (h : ∀ k ∈ ks, wold.Ready k)
    (k : Int) (hk : k ∈ ks) (hs : (wold.solution k).isSome) :
    ∃ wold' wnew', moveCells ks wold wnew = .ok (wold', wnew') ∧
      wold'.temperature k = none ∧ wold'.pressure k = none ∧
      wnew'.temperature = wnew.temperature ∧ wnew'.pressure = wnew.pressure := by
  obtain ⟨u', h1, _, _, _, _, _, _, _, h2, h3⟩ := cells_arrive_partial wold wnew ks h ⟨k, hk, hs⟩
  exact ⟨wold.deleteCells ks, u', by rw [moveCells, h1], by simp [Cells.deleteCells, hk],
    by simp [Cells.deleteCells, hk], h2, h3⟩

/-- C59 fails: a gas phase that carries another number than its cell, as those made by
`SetGasCompMoles` do (they carry 1), is deleted from its cell and arrives in the cell of that
number. -/
theorem misnumbered_gas_lost (wold wnew : Cells) (k : Int)
    (hgood : ∀ e ∈ wold.found false false k, e.Good) (hs : (wold.solution k).isSome)
    (g : GasPhase) (hg : wold.gasPhase k = some g) (hn : g.nUser ≠ k) :
    ∃ wold' wnew', moveCells [k] wold wnew = .ok (wold', wnew') ∧
      wold'.gasPhase k = none ∧ wnew'.gasPhase k = wnew.gasPhase k ∧
      wnew'.gasPhase g.nUser = some g.received := by
  have h1 := receive_stores wold wnew [k] (by simpa using hgood) ⟨k, by simp, hs⟩
  rw [foldl_cells] at h1
  refine ⟨wold.deleteCells [k], _, by rw [moveCells, h1], by simp [Cells.deleteCells], ?_, ?_⟩
  · simp only [List.foldl_cons, List.foldl_nil, hg, Option.map_some, keepOpt, keep]
    rw [if_neg]
    exact fun e => hn e.symm
  · simp only [List.foldl_cons, List.foldl_nil, hg, Option.map_some, keepOpt, keep]
    exact if_pos rfl

/-- Packing cells without any reactant takes the address of the first element of an empty
vector. -/
theorem empty_cells_undefined (w u : Cells) (ks : List Int)
    (h : ∀ k ∈ ks, w.found false false k = []) : receive (packCells w ks) u = .ub := by
  have e : ks.flatMap (w.found false false) = [] := by
    rw [List.flatMap_eq_nil_iff]; exact h
  rw [packCells, foldl_serialize, e]
  simp [receive, Message.empty, putAll]

end Verif.Pack
