import Verif.MpiMove.Model
import Verif.MpiMove.Spec
import Verif.Serial.CellsProps
import Verif.Transfer.Props
import Std.Data.String.ToNat

/-! # Helper lemmas about moving cells between processes -/

namespace Verif.MpiMove

open Verif.OMap Verif.Serial Verif.Store Verif.Ranges Verif.Transfer

theorem digits_inj {a b : Nat} (h : Nat.toDigits 10 a = Nat.toDigits 10 b) : a = b := by
  refine Nat.repr_injective ?_
  unfold Nat.repr
  rw [h]

theorem hash_not_mem (n : Nat) : '#' ∉ Nat.toDigits 10 n := by
  intro h
  have := Nat.isDigit_of_mem_toDigits (by decide) (by decide) h
  exact absurd this (by decide)

theorem split_hash {a b c d : List Char} (ha : '#' ∉ a) (hb : '#' ∉ b)
    (h : a ++ '#' :: c = b ++ '#' :: d) : a = b ∧ c = d := by
  induction a generalizing b with
  | nil =>
    cases b with
    | nil => simpa using h
    | cons x b =>
      simp only [List.nil_append, List.cons_append, List.cons.injEq] at h
      exact absurd (h.1 ▸ List.mem_cons_self) hb
  | cons x a ih =>
    cases b with
    | nil =>
      simp only [List.nil_append, List.cons_append, List.cons.injEq] at h
      exact absurd (h.1 ▸ List.mem_cons_self) ha
    | cons y b =>
      simp only [List.cons_append, List.cons.injEq] at h
      obtain ⟨h1, h2⟩ := ih (fun hm => ha (List.mem_cons_of_mem _ hm))
        (fun hm => hb (List.mem_cons_of_mem _ hm)) h.2
      exact ⟨by rw [h.1, h1], h2⟩

theorem key_inj {o n o' n' : Nat} (h : key o n = key o' n') : o = o' ∧ n = n' := by
  obtain ⟨h1, h2⟩ := split_hash (hash_not_mem o) (hash_not_mem o') h
  exact ⟨digits_inj h1, digits_inj h2⟩

/-- What the loop keeps: the entries are right and hold the cells before `k` that change owner. -/
structure PairsOk (old new : List (Int × Int)) (k : Int) (m : Pairs) : Prop where
  sorted : Sorted m
  key : ∀ e ∈ m, e.1 = key e.2.1 e.2.2.1
  ne : ∀ e ∈ m, e.2.1 ≠ e.2.2.1
  owner : ∀ e ∈ m, ∀ c ∈ e.2.2.2, 0 ≤ c ∧ c < k ∧ Owns old e.2.1 c ∧ Owns new e.2.2.1 c
  all : ∀ c, 0 ≤ c → c < k → ∀ o n, Owns old o c → Owns new n c → o ≠ n →
    ∃ e ∈ m, c ∈ e.2.2.2

theorem mem_insert {κ ν : Type} [LinearOrder κ] {m : SMap κ ν} (hs : Sorted m) {k : κ} {v : ν}
    {e : κ × ν} : e ∈ OMap.insert m k v ↔ e = (k, v) ∨ (e ∈ m ∧ e.1 ≠ k) := by
  have hs' := sorted_insert hs k v
  constructor
  · intro h
    have := find_of_mem hs' (k := e.1) (v := e.2) h
    rw [find_insert] at this
    by_cases he : e.1 = k
    · left
      rw [if_pos he] at this
      cases this
      exact Prod.ext he rfl
    · right
      rw [if_neg (by simpa using he)] at this
      exact ⟨mem_of_find this, he⟩
  · rintro (rfl | ⟨h, hne⟩)
    · exact mem_of_find (by rw [find_insert, if_pos rfl])
    · have h1 := find_of_mem hs (k := e.1) (v := e.2) h
      exact mem_of_find (k := e.1) (v := e.2) (by rw [find_insert, if_neg (by simpa using hne), h1])

theorem PairsOk.add {old new : List (Int × Int)} {b k : Int} {m : Pairs} {o n : Nat}
    (hold : Contig 0 b old) (hnew : Contig 0 b new) (h : PairsOk old new k m) (h0 : 0 ≤ k)
    (ho : Owns old o k) (hn : Owns new n k) (hne : o ≠ n) :
    PairsOk old new (k + 1) (addCell m o n k) := by
  have key' : ∃ ks, addCell m o n k = OMap.insert m (MpiMove.key o n) (o, n, ks ++ [k]) ∧
      ((∃ e ∈ m, e.1 = MpiMove.key o n) → (MpiMove.key o n, (o, n, ks)) ∈ m) ∧
      (ks = [] ∨ (MpiMove.key o n, (o, n, ks)) ∈ m) := by
    unfold addCell
    cases hf : find m (MpiMove.key o n) with
    | none =>
      refine ⟨[], rfl, fun ⟨e, he, hk⟩ => ?_, Or.inl rfl⟩
      have := find_of_mem h.sorted (k := e.1) (v := e.2) he
      rw [hk, hf] at this; cases this
    | some v =>
      have hm := mem_of_find hf
      have hk := key_inj (h.key _ hm)
      dsimp only at hk
      obtain ⟨v1, v2, v3⟩ := v
      dsimp only at hk ⊢
      obtain ⟨rfl, rfl⟩ := hk
      exact ⟨v3, rfl, fun _ => hm, Or.inr hm⟩
  obtain ⟨ks, he, hex, hks⟩ := key'
  rw [he]
  have hmem : ∀ {e}, e ∈ OMap.insert m (MpiMove.key o n) (o, n, ks ++ [k]) ↔
      e = (MpiMove.key o n, (o, n, ks ++ [k])) ∨ (e ∈ m ∧ e.1 ≠ MpiMove.key o n) :=
    mem_insert h.sorted
  refine ⟨sorted_insert h.sorted _ _, ?_, ?_, ?_, ?_⟩
  · intro e he
    rcases hmem.mp he with rfl | ⟨he, _⟩
    · rfl
    · exact h.key e he
  · intro e he
    rcases hmem.mp he with rfl | ⟨he, _⟩
    · exact hne
    · exact h.ne e he
  · intro e he c hc
    rcases hmem.mp he with rfl | ⟨he, _⟩
    · rcases List.mem_append.mp hc with hc | hc
      · rcases hks with rfl | hks
        · cases hc
        · obtain ⟨a1, a2, a3, a4⟩ := h.owner _ hks c hc
          exact ⟨a1, by omega, a3, a4⟩
      · rw [List.mem_singleton] at hc
        subst hc
        exact ⟨h0, by omega, ho, hn⟩
    · obtain ⟨a1, a2, a3, a4⟩ := h.owner e he c hc
      exact ⟨a1, by omega, a3, a4⟩
  · intro c hc0 hck o' n' ho' hn' hne'
    by_cases hc : c = k
    · subst hc
      exact ⟨_, hmem.mpr (Or.inl rfl), by simp⟩
    · obtain ⟨e, he, hce⟩ := h.all c hc0 (by omega) o' n' ho' hn' hne'
      by_cases hk : e.1 = MpiMove.key o n
      · have hm := hex ⟨e, he, hk⟩
        have h1 := find_of_mem h.sorted (k := e.1) (v := e.2) he
        have h2 := find_of_mem h.sorted hm
        rw [hk, h2] at h1
        have h1 := (Option.some.inj h1).symm
        refine ⟨_, hmem.mpr (Or.inl rfl), List.mem_append_left _ ?_⟩
        rw [h1] at hce
        exact hce
      · exact ⟨e, hmem.mpr (Or.inr ⟨he, hk⟩), hce⟩

theorem PairsOk.skip {old new : List (Int × Int)} {b k : Int} {m : Pairs} {o : Nat}
    (hold : Contig 0 b old) (hnew : Contig 0 b new) (h : PairsOk old new k m)
    (ho : Owns old o k) (hn : Owns new o k) : PairsOk old new (k + 1) m := by
  refine ⟨h.sorted, h.key, h.ne, fun e he c hc => ?_, fun c hc0 hck o' n' ho' hn' hne' => ?_⟩
  · obtain ⟨a1, a2, a3, a4⟩ := h.owner e he c hc
    exact ⟨a1, by omega, a3, a4⟩
  · by_cases hc : c = k
    · subst hc
      exact absurd ((hold.owner_unique ho' ho).trans (hnew.owner_unique hn hn')) hne'
    · exact h.all c hc0 (by omega) o' n' ho' hn' hne'

theorem pairLoop_spec (old new : List (Int × Int)) (b : Int) (hold : Contig 0 b old)
    (hnew : Contig 0 b new) :
    ∀ (n : Nat) (k : Int) (i : Nat) (os : List Int) (j : Nat) (ns : List Int) (m : Pairs),
      k + n = b → 0 ≤ k → At old b i os k → At new b j ns k → PairsOk old new k m →
      ∃ m', pairLoop n k i os j ns m = .ok m' ∧ PairsOk old new b m' := by
  intro n
  induction n with
  | zero =>
    intro k i os j ns m hk _ _ _ h
    have : k = b := by simpa using hk
    exact ⟨m, rfl, this ▸ h⟩
  | succ n ih =>
    intro k i os j ns m hk h0 ho hn h
    have hkb : k < b := by omega
    obtain ⟨i', os', e1, o1, a1, _⟩ := advance_spec old b k hkb os i ho
    obtain ⟨j', ns', e2, o2, a2, _⟩ := advance_spec new b k hkb ns j hn
    simp only [pairLoop, e1, e2]
    refine ih (k + 1) i' os' j' ns' _ (by omega) (by omega) a1 a2 ?_
    by_cases hij : i' = j'
    · rw [if_pos hij]
      subst hij
      exact h.skip hold hnew o1 o2
    · rw [if_neg hij]
      exact h.add hold hnew h0 o1 o2 hij

theorem view_delete (m : Cells) (ks : List Int) (kd : Kind) (c : Int) :
    view (deleteCells m ks) kd c = if c ∈ ks then none else view m kd c := by
  have hf : ∀ {β : Type} (l : SMap Int β),
      find (l.filter (fun e => e.1 ∉ ks)) c = if c ∈ ks then none else find l c := by
    intro β l
    have := find_filter_key l (fun k => decide (k ∉ ks)) c
    rw [this]
    by_cases h : c ∈ ks <;> simp [h]
  cases kd <;> simp only [view, deleteCells, hf] <;> split <;> rfl

/-- The reactants of the cells of a list can be packed. -/
theorem sendable_of_view {m : Cells} {ks : List Int}
    (h : ∀ c ∈ ks, ∀ kd e, CellKind kd → view m kd c = some e → num e = c ∧ e.Sendable) :
    m.Sendable false false (InRanges (ks.map (fun k => (k, k)))) := by
  have hin : ∀ c, InRanges (ks.map (fun k => (k, k))) c → c ∈ ks := by
    rintro c ⟨r, hr, h1, h2⟩
    obtain ⟨k, hk, rfl⟩ := List.mem_map.mp hr
    have : c = k := le_antisymm h2 h1
    exact this ▸ hk
  refine ⟨?_, ?_, ?_, ?_, ?_, ?_, ?_, (fun h => by cases h), fun h => by cases h⟩
  · exact fun c hc x hx => h c (hin c hc) .solution (.solution x) (by simp [CellKind]) (by simp [view, hx])
  · exact fun c hc x hx => h c (hin c hc) .exchange (.exchange x) (by simp [CellKind]) (by simp [view, hx])
  · exact fun c hc x hx => h c (hin c hc) .gasPhase (.gas x) (by simp [CellKind]) (by simp [view, hx])
  · exact fun c hc x hx => h c (hin c hc) .kinetics (.kinetics x) (by simp [CellKind]) (by simp [view, hx])
  · exact fun c hc x hx => h c (hin c hc) .ppAssemblage (.pp x) (by simp [CellKind]) (by simp [view, hx])
  · exact fun c hc x hx => h c (hin c hc) .ssAssemblage (.ss x) (by simp [CellKind]) (by simp [view, hx])
  · exact fun c hc x hx => h c (hin c hc) .surface (.surface x) (by simp [CellKind]) (by simp [view, hx])

theorem view_map {α : Type} {rec : α → α} {C : α → Entity} (hC : ∀ x, (C x).received = C (rec x))
    {K : Int → Prop} {s o n : SMap Int α} (h : Arrives rec K s o n) (c : Int) :
    (K c → ∀ e, (find s c).map C = some e → (find n c).map C = some e.received) ∧
      (¬ K c ∨ (find s c).map C = none → (find n c).map C = (find o c).map C) := by
  obtain ⟨h1, h2⟩ := h c
  refine ⟨fun hK e he => ?_, fun hK => ?_⟩
  · obtain ⟨x, hx, rfl⟩ := Option.map_eq_some_iff.mp he
    rw [h1 hK x hx, hC]; rfl
  · rw [h2 (hK.imp id (fun h => by simpa using h))]

/-- `AllArrive` in terms of `view`. -/
theorem view_arrive {K : Int → Prop} {s o n : Cells} (h : AllArrive false false K s o n)
    (kd : Kind) (c : Int) :
    (CellKind kd → K c → ∀ e, view s kd c = some e → view n kd c = some e.received) ∧
      (¬ K c ∨ view s kd c = none ∨ ¬ CellKind kd → view n kd c = view o kd c) := by
  cases kd
  · obtain ⟨a, b⟩ := view_map (C := Entity.solution) (fun _ => rfl) h.solutions c
    exact ⟨fun _ => a, fun hx => b (hx.imp_right (fun h => h.resolve_right (by simp [CellKind])))⟩
  · obtain ⟨a, b⟩ := view_map (C := Entity.exchange) (fun _ => rfl) h.exchanges c
    exact ⟨fun _ => a, fun hx => b (hx.imp_right (fun h => h.resolve_right (by simp [CellKind])))⟩
  · obtain ⟨a, b⟩ := view_map (C := Entity.gas) (fun _ => rfl) h.gases c
    exact ⟨fun _ => a, fun hx => b (hx.imp_right (fun h => h.resolve_right (by simp [CellKind])))⟩
  · obtain ⟨a, b⟩ := view_map (C := Entity.kinetics) (fun _ => rfl) h.kinetics c
    exact ⟨fun _ => a, fun hx => b (hx.imp_right (fun h => h.resolve_right (by simp [CellKind])))⟩
  · obtain ⟨a, b⟩ := view_map (C := Entity.pp) (fun _ => rfl) h.pps c
    exact ⟨fun _ => a, fun hx => b (hx.imp_right (fun h => h.resolve_right (by simp [CellKind])))⟩
  · obtain ⟨a, b⟩ := view_map (C := Entity.ss) (fun _ => rfl) h.sss c
    exact ⟨fun _ => a, fun hx => b (hx.imp_right (fun h => h.resolve_right (by simp [CellKind])))⟩
  · obtain ⟨a, b⟩ := view_map (C := Entity.surface) (fun _ => rfl) h.surfaces c
    exact ⟨fun _ => a, fun hx => b (hx.imp_right (fun h => h.resolve_right (by simp [CellKind])))⟩
  · exact ⟨fun hk => by simp [CellKind] at hk, fun _ => rfl⟩
  · exact ⟨fun hk => by simp [CellKind] at hk, fun _ => rfl⟩
  · refine ⟨fun hk => by simp [CellKind] at hk, fun _ => ?_⟩
    exact (view_map (C := Entity.temperature) (fun _ => rfl) h.temperatures c).2 (Or.inl (by simp))
  · refine ⟨fun hk => by simp [CellKind] at hk, fun _ => ?_⟩
    exact (view_map (C := Entity.pressure) (fun _ => rfl) h.pressures c).2 (Or.inl (by simp))

/-- One entry of the transfer list. -/
theorem movePair_spec (w : Nat → Cells) (o n : Nat) (ks : List Int) (hne : o ≠ n)
    (h : ∀ c ∈ ks, ∀ kd e, CellKind kd → view (w o) kd c = some e → num e = c ∧ e.Sendable) :
    ∃ w', movePair w (o, n, ks) = .ok w' ∧
      ∀ i kd c,
        (i = o → view (w' i) kd c = if c ∈ ks then none else view (w i) kd c) ∧
        (i = n → CellKind kd → c ∈ ks → ∀ e, view (w o) kd c = some e →
          view (w' i) kd c = some e.received) ∧
        (i = n → c ∉ ks ∨ view (w o) kd c = none ∨ ¬ CellKind kd →
          view (w' i) kd c = view (w i) kd c) ∧
        (i ≠ o → i ≠ n → view (w' i) kd c = view (w i) kd c) := by
  obtain ⟨new, h1, h2⟩ := cells_sent_partial (w o) (w n) false false (ks.map (fun k => (k, k)))
    (sendable_of_view h)
  have hin : ∀ c, InRanges (ks.map (fun k => (k, k))) c ↔ c ∈ ks := by
    intro c
    constructor
    · rintro ⟨r, hr, h1, h2⟩
      obtain ⟨k, hk, rfl⟩ := List.mem_map.mp hr
      have : c = k := le_antisymm h2 h1
      exact this ▸ hk
    · intro hc
      exact ⟨(c, c), List.mem_map.mpr ⟨c, hc, rfl⟩, le_refl _, le_refl _⟩
  refine ⟨setAt (setAt w n new) o (deleteCells (w o) ks), ?_, ?_⟩
  · unfold movePair
    simp only at h1 ⊢
    rw [h1]
    simp only [setAt_other _ _ _ _ hne]
  · intro i kd c
    have hv := view_arrive h2 kd c
    refine ⟨?_, ?_, ?_, ?_⟩
    · rintro rfl
      rw [setAt_same, view_delete]
    · rintro rfl hk hc e he
      rw [setAt_other _ _ _ _ (Ne.symm hne), setAt_same]
      exact hv.1 hk ((hin c).mpr hc) e he
    · rintro rfl hc
      rw [setAt_other _ _ _ _ (Ne.symm hne), setAt_same]
      exact hv.2 (hc.imp_left (fun h hK => h ((hin c).mp hK)))
    · intro hio hin'
      rw [setAt_other _ _ _ _ hio, setAt_other _ _ _ _ hin']

/-- State while the entries `vs` are still to be done. -/
def MidMove (b : Int) (old new : List (Int × Int)) (content : Int → Kind → Option Entity)
    (vs : List (Nat × Nat × List Int)) (w : Nat → Cells) : Prop :=
  ∀ i c kd, 0 ≤ c → c < b → CellKind kd →
    ((∃ v ∈ vs, c ∈ v.2.2) → (Owns old i c → view (w i) kd c = content c kd) ∧
      (¬ Owns old i c → view (w i) kd c = none)) ∧
    ((¬ ∃ v ∈ vs, c ∈ v.2.2) →
      (Owns new i c → Owns old i c → view (w i) kd c = content c kd) ∧
      (Owns new i c → ¬ Owns old i c → view (w i) kd c = (content c kd).map Entity.received) ∧
      (¬ Owns new i c → view (w i) kd c = none))

theorem moveAll_spec (b : Int) (old new : List (Int × Int)) (hold : Contig 0 b old)
    (hnew : Contig 0 b new) (content : Int → Kind → Option Entity) (hc : ContentOk b content) :
    ∀ (vs : List (Nat × Nat × List Int)) (w : Nat → Cells),
      (∀ v ∈ vs, v.1 ≠ v.2.1 ∧ ∀ c ∈ v.2.2, 0 ≤ c ∧ c < b ∧ Owns old v.1 c ∧ Owns new v.2.1 c) →
      vs.Pairwise (fun u v => ∀ c ∈ u.2.2, c ∉ v.2.2) →
      MidMove b old new content vs w →
      ∃ w', moveAll vs w = .ok w' ∧ MidMove b old new content [] w' ∧
        ∀ i c kd, (c < 0 ∨ b ≤ c) → view (w' i) kd c = view (w i) kd c := by
  intro vs
  induction vs with
  | nil => intro w _ _ h; exact ⟨w, rfl, h, fun _ _ _ _ => rfl⟩
  | cons v vs ih =>
    intro w hvs hp h
    obtain ⟨o, n, ks⟩ := v
    obtain ⟨hne, hks⟩ := hvs _ List.mem_cons_self
    dsimp only at hne hks
    obtain ⟨hp1, hp2⟩ := List.pairwise_cons.mp hp
    have hview : ∀ c ∈ ks, ∀ kd, CellKind kd → view (w o) kd c = content c kd := by
      intro c hcs kd hkd
      obtain ⟨h0, h1, h2, _⟩ := hks c hcs
      exact ((h o c kd h0 h1 hkd).1 ⟨_, List.mem_cons_self, hcs⟩).1 h2
    obtain ⟨w1, e1, hw⟩ := movePair_spec w o n ks hne (by
      intro c hcs kd e hkd he
      rw [hview c hcs kd hkd] at he
      exact hc c kd e (hks c hcs).1 (hks c hcs).2.1 hkd he)
    have hmid : MidMove b old new content vs w1 := by
      intro i c kd h0 h1 hkd
      obtain ⟨f1, f2, f3, f4⟩ := hw i kd c
      by_cases hcs : c ∈ ks
      · have hnot : ¬ ∃ v ∈ vs, c ∈ v.2.2 := fun ⟨v, hv, hcv⟩ => hp1 v hv c hcs hcv
        obtain ⟨_, _, ho, hn⟩ := hks c hcs
        have hold' : ∀ j, Owns old j c ↔ j = o := owner_iff hold ho
        have hnew' : ∀ j, Owns new j c ↔ j = n := owner_iff hnew hn
        refine ⟨fun hx => absurd hx hnot, fun _ => ⟨?_, ?_, ?_⟩⟩
        · intro hi1 hi2
          exact absurd (((hold' i).mp hi2).symm.trans ((hnew' i).mp hi1)) hne
        · intro hi1 _
          have hin := (hnew' i).mp hi1
          cases hcon : content c kd with
          | some e =>
            rw [f2 hin hkd hcs e (by rw [hview c hcs kd hkd, hcon])]; rfl
          | none =>
            rw [f3 hin (Or.inr (Or.inl (by rw [hview c hcs kd hkd, hcon])))]
            have := ((h i c kd h0 h1 hkd).1 ⟨_, List.mem_cons_self, hcs⟩).2
              (fun hx => hne (((hold' i).mp hx).symm.trans hin))
            rw [this]; rfl
        · intro hi1
          by_cases hio : i = o
          · rw [f1 hio, if_pos hcs]
          · have hin : i ≠ n := fun hx => hi1 ((hnew' i).mpr hx)
            rw [f4 hio hin]
            exact ((h i c kd h0 h1 hkd).1 ⟨_, List.mem_cons_self, hcs⟩).2
              (fun hx => hio ((hold' i).mp hx))
      · have hsame : view (w1 i) kd c = view (w i) kd c := by
          by_cases hio : i = o
          · rw [f1 hio, if_neg hcs]
          · by_cases hin : i = n
            · exact f3 hin (Or.inl hcs)
            · exact f4 hio hin
        rw [hsame]
        have hiff : (∃ v ∈ (o, n, ks) :: vs, c ∈ v.2.2) ↔ ∃ v ∈ vs, c ∈ v.2.2 := by
          constructor
          · rintro ⟨v, hv, hcv⟩
            rcases List.mem_cons.mp hv with rfl | hv
            · exact absurd hcv hcs
            · exact ⟨v, hv, hcv⟩
          · rintro ⟨v, hv, hcv⟩
            exact ⟨v, List.mem_cons_of_mem _ hv, hcv⟩
        have hh := h i c kd h0 h1 hkd
        rw [hiff] at hh
        exact hh
    obtain ⟨w2, e2, hm2, hout⟩ := ih w1 (fun v hv => hvs v (List.mem_cons_of_mem _ hv)) hp2 hmid
    refine ⟨w2, ?_, hm2, fun i c kd hcr => ?_⟩
    · simp only [moveAll, e1]
      exact e2
    · rw [hout i c kd hcr]
      obtain ⟨f1, f2, f3, f4⟩ := hw i kd c
      have hcs : c ∉ ks := fun hx => by
        have := hks c hx; omega
      by_cases hio : i = o
      · rw [f1 hio, if_neg hcs]
      · by_cases hin : i = n
        · exact f3 hin (Or.inl hcs)
        · exact f4 hio hin

/-- Reactants that are not packed: deleted from the sender, nothing else. -/
theorem moveAll_other (b : Int) (old new : List (Int × Int)) (hold : Contig 0 b old)
    (content : Int → Kind → Option Entity) (hc : ContentOk b content) :
    ∀ (vs : List (Nat × Nat × List Int)) (w w' : Nat → Cells),
      (∀ v ∈ vs, v.1 ≠ v.2.1 ∧ ∀ c ∈ v.2.2, 0 ≤ c ∧ c < b ∧ Owns old v.1 c ∧ Owns new v.2.1 c) →
      vs.Pairwise (fun u v => ∀ c ∈ u.2.2, c ∉ v.2.2) →
      (∀ v ∈ vs, ∀ c ∈ v.2.2, ∀ kd, CellKind kd → view (w v.1) kd c = content c kd) →
      moveAll vs w = .ok w' →
      ∀ i kd c, ¬ CellKind kd → view (w' i) kd c =
        if ∃ v ∈ vs, v.1 = i ∧ c ∈ v.2.2 then none else view (w i) kd c := by
  intro vs
  induction vs with
  | nil =>
    intro w w' _ _ _ h i kd c _
    cases h
    simp
  | cons v vs ih =>
    intro w w' hvs hp hview h i kd c hkd
    obtain ⟨o, n, ks⟩ := v
    obtain ⟨hne, hks⟩ := hvs _ List.mem_cons_self
    dsimp only at hne hks
    obtain ⟨hp1, hp2⟩ := List.pairwise_cons.mp hp
    obtain ⟨w1, e1, hw⟩ := movePair_spec w o n ks hne (by
      intro c hcs kd e hkd he
      rw [hview _ List.mem_cons_self c hcs kd hkd] at he
      exact hc c kd e (hks c hcs).1 (hks c hcs).2.1 hkd he)
    simp only [moveAll, e1] at h
    have hv1 : ∀ v ∈ vs, ∀ c ∈ v.2.2, ∀ kd, CellKind kd → view (w1 v.1) kd c = content c kd := by
      intro v hv c hcv kd hkd
      have hcs : c ∉ ks := fun hx => hp1 v hv c hx hcv
      rw [← hview v (List.mem_cons_of_mem _ hv) c hcv kd hkd]
      obtain ⟨f1, f2, f3, f4⟩ := hw v.1 kd c
      by_cases hio : v.1 = o
      · rw [f1 hio, if_neg hcs]
      · by_cases hin : v.1 = n
        · exact f3 hin (Or.inl hcs)
        · exact f4 hio hin
    have := ih w1 w' (fun v hv => hvs v (List.mem_cons_of_mem _ hv)) hp2 hv1 h i kd c hkd
    rw [this]
    obtain ⟨f1, f2, f3, f4⟩ := hw i kd c
    by_cases hex : ∃ v ∈ vs, v.1 = i ∧ c ∈ v.2.2
    · obtain ⟨v, hv, hvi, hcv⟩ := hex
      rw [if_pos ⟨v, hv, hvi, hcv⟩, if_pos ⟨v, List.mem_cons_of_mem _ hv, hvi, hcv⟩]
    · rw [if_neg hex]
      by_cases hio : i = o
      · rw [f1 hio]
        by_cases hcs : c ∈ ks
        · rw [if_pos hcs, if_pos ⟨_, List.mem_cons_self, hio.symm, hcs⟩]
        · rw [if_neg hcs, if_neg]
          rintro ⟨v, hv, hvi, hcv⟩
          rcases List.mem_cons.mp hv with rfl | hv
          · exact hcs hcv
          · exact hex ⟨v, hv, hvi, hcv⟩
      · rw [if_neg]
        · by_cases hin : i = n
          · exact f3 hin (Or.inr (Or.inr hkd))
          · exact f4 hio hin
        · rintro ⟨v, hv, hvi, hcv⟩
          rcases List.mem_cons.mp hv with rfl | hv
          · exact hio hvi.symm
          · exact hex ⟨v, hv, hvi, hcv⟩

end Verif.MpiMove
