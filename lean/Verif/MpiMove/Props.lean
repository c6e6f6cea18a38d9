import Verif.MpiMove.Lemmas

/-!
# Moving cells between MPI processes (C132)
-/

namespace Verif.MpiMove

open Verif.OMap Verif.Serial Verif.Store Verif.Ranges Verif.Transfer

/-- The transfer list of `redistribute`: entries with different owners, no cell twice, every cell
that changes owner. -/
theorem pairs_spec (count : Nat) (old new : List (Int × Int))
    (hold : Contig 0 count old) (hnew : Contig 0 count new) :
    ∃ m : Pairs, pairLoop count 0 0 (old.map Prod.snd) 0 (new.map Prod.snd) [] = .ok m ∧
      PairsOk old new count m ∧
      (∀ v ∈ m.map Prod.snd, v.1 ≠ v.2.1 ∧
        ∀ c ∈ v.2.2, 0 ≤ c ∧ c < (count : Int) ∧ Owns old v.1 c ∧ Owns new v.2.1 c) ∧
      (m.map Prod.snd).Pairwise (fun u v => ∀ c ∈ u.2.2, c ∉ v.2.2) := by
  obtain ⟨m, e1, hm⟩ := pairLoop_spec old new count hold hnew count 0 0 (old.map Prod.snd) 0
    (new.map Prod.snd) [] (by simp) (le_refl _)
    ⟨0, old, rfl, rfl, hold, le_refl _⟩ ⟨0, new, rfl, rfl, hnew, le_refl _⟩
    ⟨by simp [OMap.Sorted], by simp, by simp, by simp, fun c h0 h1 => by omega⟩
  refine ⟨m, e1, hm, ?_, ?_⟩
  · intro v hv
    obtain ⟨e, he, rfl⟩ := List.mem_map.mp hv
    exact ⟨hm.ne e he, hm.owner e he⟩
  · rw [List.pairwise_map]
    refine hm.sorted.imp_of_mem ?_
    intro a b ha hb hlt c hca hcb
    obtain ⟨_, _, a1, a2⟩ := hm.owner a ha c hca
    obtain ⟨_, _, b1, b2⟩ := hm.owner b hb c hcb
    have e1 := hold.owner_unique a1 b1
    have e2 := hnew.owner_unique a2 b2
    have := (hm.key a ha).trans ((by rw [e1, e2] : key a.2.1 a.2.2.1 = key b.2.1 b.2.2.1).trans
      (hm.key b hb).symm)
    exact absurd hlt (this ▸ lt_irrefl _)

/-- C132. Rebalancing in the MPI build moves every cell to the process that owns it in the new
ranges: afterwards that process holds the reactants, as they were if the cell did not move and as
`received` says if it did, and no other process holds any. Reactants filed under other numbers are
unchanged in every process. Missing: what `received` loses (C131), and reactants that are not packed
(`mpi_temperature_violated`). -/
theorem mpi_redistribute_partial (count : Nat) (old new : List (Int × Int))
    (hold : Contig 0 count old) (hnew : Contig 0 count new)
    (content : Int → Kind → Option Entity) (hc : ContentOk count content) (w : Nat → Cells)
    (h : Held count old content w) :
    ∃ w', redistribute count old new w = .ok w' ∧
      (∀ (i : Nat) (c : Int) kd, 0 ≤ c → c < count → CellKind kd →
        (Owns new i c → Owns old i c → view (w' i) kd c = content c kd) ∧
        (Owns new i c → ¬ Owns old i c →
          view (w' i) kd c = (content c kd).map Entity.received) ∧
        (¬ Owns new i c → view (w' i) kd c = none)) ∧
      ∀ (i : Nat) (c : Int) kd, (c < 0 ∨ (count : Int) ≤ c) →
        view (w' i) kd c = view (w i) kd c := by
  obtain ⟨m, e1, hm, hvs, hpw⟩ := pairs_spec count old new hold hnew
  obtain ⟨w', e2, h2, h3⟩ := moveAll_spec count old new hold hnew content hc (m.map Prod.snd) w hvs
    hpw (by
      intro i c kd h0 h1 hkd
      have hh := h i c kd h0 h1 hkd
      refine ⟨fun _ => hh, fun hno => ?_⟩
      have same : ∀ j, Owns new j c ↔ Owns old j c := by
        obtain ⟨o, _, ho⟩ := hold.owner h0 h1
        obtain ⟨n, _, hn⟩ := hnew.owner h0 h1
        have hon : o = n := by
          by_contra hne
          obtain ⟨e, he, hce⟩ := hm.all c h0 h1 o n ho hn hne
          exact hno ⟨e.2, List.mem_map.mpr ⟨e, he, rfl⟩, hce⟩
        intro j
        rw [owner_iff hold ho, owner_iff hnew hn, hon]
      refine ⟨fun _ h2 => hh.1 h2, fun h1' h2' => absurd ((same i).mp h1') h2', fun h1' =>
        hh.2 (fun hx => h1' ((same i).mpr hx))⟩)
  refine ⟨w', ?_, ?_, h3⟩
  · unfold redistribute
    rw [e1]
    exact e2
  · intro i c kd h0 h1 hkd
    exact (h2 i c kd h0 h1 hkd).2 (by simp)

/-- C132, violated. Whatever the cells hold, a reaction temperature (or pressure) of a cell that
moves is deleted by the old owner and not given to the new one. -/
theorem mpi_temperature_violated (count : Nat) (old new : List (Int × Int))
    (hold : Contig 0 count old) (hnew : Contig 0 count new)
    (content : Int → Kind → Option Entity) (hc : ContentOk count content) (w w' : Nat → Cells)
    (h : Held count old content w) (hr : redistribute count old new w = .ok w')
    (c : Int) (o n : Nat) (ho : Owns old o c) (hn : Owns new n c) (hne : o ≠ n) (kd : Kind)
    (hkd : kd = .temperature ∨ kd = .pressure) :
    view (w' o) kd c = none ∧ view (w' n) kd c = view (w n) kd c := by
  obtain ⟨m, e1, hm, hvs, hpw⟩ := pairs_spec count old new hold hnew
  unfold redistribute at hr
  rw [e1] at hr
  have hk : ¬ CellKind kd := by rcases hkd with rfl | rfl <;> simp [CellKind]
  have key := fun i => moveAll_other count old new hold content hc (m.map Prod.snd) w w' hvs hpw (by
    intro v hv c hcv kd hkd
    obtain ⟨h0, h1, h2, _⟩ := (hvs v hv).2 c hcv
    exact (h v.1 c kd h0 h1 hkd).1 h2) hr i kd c hk
  obtain ⟨h0, h1⟩ := hold.owns_bounds ho
  obtain ⟨e, he, hce⟩ := hm.all c h0 h1 o n ho hn hne
  have heo : e.2.1 = o := hold.owner_unique (hm.owner e he c hce).2.2.1 ho
  refine ⟨?_, ?_⟩
  · rw [key, if_pos ⟨e.2, List.mem_map.mpr ⟨e, he, rfl⟩, heo, hce⟩]
  · rw [key, if_neg]
    rintro ⟨v, hv, hvn, hcv⟩
    have := hold.owner_unique ((hvs v hv).2 c hcv).2.2.1 ho
    exact hne (this.symm.trans hvn)

/-- Cells 0 to 4 on two processes, cell 3 of the first, with all kinds of reactants, a
temperature among them, to be moved to the second. -/
def exampleWorld : Nat → Cells
  | 0 => exampleCells
  | _ => { exampleCells with
      solutions := [], exchanges := [], gases := [], kinetics := [], pps := [], sss := [],
      surfaces := [], temperatures := [], pressures := [] }

/-- The contents of the cells of `exampleWorld`. -/
def exampleContent : Int → Kind → Option Entity := fun c kd => view exampleCells kd c

theorem example_contentOk : ContentOk 5 exampleContent := by
  intro c kd e h0 h1 hkd he
  have hc : c = 3 := by
    have : c = 0 ∨ c = 1 ∨ c = 2 ∨ c = 3 ∨ c = 4 := by omega
    rcases this with rfl | rfl | rfl | rfl | rfl
    · cases kd <;> first | cases he | simp [CellKind] at hkd
    · cases kd <;> first | cases he | simp [CellKind] at hkd
    · cases kd <;> first | cases he | simp [CellKind] at hkd
    · rfl
    · cases kd <;> first | cases he | simp [CellKind] at hkd
  subst hc
  have hs := exampleCells_sendable
  have hk : InRanges [(3, 3)] 3 := ⟨_, List.mem_singleton_self _, le_refl _, le_refl _⟩
  cases kd
  · cases he; exact hs.solutions 3 hk _ rfl
  · cases he; exact hs.exchanges 3 hk _ rfl
  · cases he; exact hs.gases 3 hk _ rfl
  · cases he; exact hs.kinetics 3 hk _ rfl
  · cases he; exact hs.pps 3 hk _ rfl
  · cases he; exact hs.sss 3 hk _ rfl
  · cases he; exact hs.surfaces 3 hk _ rfl
  all_goals simp [CellKind] at hkd

theorem example_held : Held 5 [(0, 3), (4, 4)] exampleContent exampleWorld := by
  intro i c kd h0 h1 hkd
  have hcon : Contig 0 5 [(0, 3), (4, 4)] := by simp [Contig]
  have hc : c = 0 ∨ c = 1 ∨ c = 2 ∨ c = 3 ∨ c = 4 := by omega
  have four : ∀ kd, CellKind kd → view exampleCells kd 4 = none := by
    intro kd hkd
    cases kd <;> first | rfl | simp [CellKind] at hkd
  have empty : ∀ j kd c, view (exampleWorld (j + 1)) kd c = none := by
    intro j kd c
    cases kd <;> rfl
  match i with
  | 0 =>
    refine ⟨fun _ => rfl, fun hno => ?_⟩
    have : c = 4 := by
      by_contra h4
      exact hno ⟨(0, 3), rfl, h0, by show c ≤ 3; omega⟩
    subst this
    exact four kd hkd
  | j + 1 =>
    refine ⟨fun ho => ?_, fun _ => empty j kd c⟩
    rw [empty]
    have h4 : c = 4 := by
      by_contra h4
      have h3 : Owns [(0, 3), (4, 4)] 0 c := ⟨(0, 3), rfl, h0, by show c ≤ 3; omega⟩
      exact absurd (hcon.owner_unique ho h3) (by omega)
    subst h4
    exact (four kd hkd).symm

/-- The conditions of `mpi_redistribute_partial` and `mpi_temperature_violated` met: cell 3 moves to
the second process, its temperature is lost. -/
example : ∃ w', redistribute 5 [(0, 3), (4, 4)] [(0, 2), (3, 4)] exampleWorld = .ok w' ∧
    view (w' 1) .exchange 3 = view exampleCells .exchange 3 ∧
    view (w' 0) .exchange 3 = none ∧
    (view (exampleWorld 0) .temperature 3).isSome ∧
    (∀ i, i < 2 → view (w' i) .temperature 3 = none) := by
  have h1 : Contig 0 5 [(0, 3), (4, 4)] := by simp [Contig]
  have h2 : Contig 0 5 [(0, 2), (3, 4)] := by simp [Contig]
  obtain ⟨w', e, h, _⟩ := mpi_redistribute_partial 5 _ _ h1 h2 exampleContent example_contentOk
    exampleWorld example_held
  have o1 : Owns [(0, 2), (3, 4)] 1 3 := ⟨(3, 4), rfl, by decide, by decide⟩
  have o0 : Owns [(0, 3), (4, 4)] 0 3 := ⟨(0, 3), rfl, by decide, by decide⟩
  have n0 : ¬ Owns [(0, 2), (3, 4)] 0 3 := fun hx => absurd (h2.owner_unique hx o1) (by decide)
  have n1 : ¬ Owns [(0, 3), (4, 4)] 1 3 := fun hx => absurd (h1.owner_unique hx o0) (by decide)
  have t := mpi_temperature_violated 5 _ _ h1 h2 exampleContent example_contentOk exampleWorld w'
    example_held e 3 0 1 o0 o1 (by decide) .temperature (Or.inl rfl)
  refine ⟨w', e, ?_, ?_, rfl, ?_⟩
  · exact (h 1 3 .exchange (by decide) (by decide) (by simp [CellKind])).2.1 o1 n1
  · exact (h 0 3 .exchange (by decide) (by decide) (by simp [CellKind])).2.2 n0
  · intro i hi
    have : i = 0 ∨ i = 1 := by omega
    rcases this with rfl | rfl
    · exact t.1
    · rw [t.2]; rfl

end Verif.MpiMove
