import Verif.Getters.Model
import Verif.Grid.Lemmas

/-! # Loop lemmas for the getters -/

namespace Verif.Getters

open Verif.Mapping Verif.Grid Verif.Ranges

theorem length_resize {α : Type} (v : List α) (n : Nat) (a : α) : (resize v n a).length = n := by
  unfold resize
  split
  · simp; omega
  · simp; omega

theorem getElem?_resize {α : Type} (v : List α) (n : Nat) (a : α) (i : Nat) (hi : i < n) :
    (resize v n a)[i]? = if i < v.length then v[i]? else some a := by
  unfold resize
  split
  · rw [List.getElem?_take, if_pos hi, if_pos (by omega)]
  · split
    · rw [List.getElem?_append_left (by assumption)]
    · rw [List.getElem?_append_right (by omega), List.getElem?_replicate, if_pos (by omega)]

theorem putCells_spec {α : Type} (f : Nat → Out α) (V : Nat → α) :
    ∀ (cells : List Nat) (c : List α), (∀ i ∈ cells, i < c.length ∧ f i = .ok (V i)) →
      ∃ c', putCells f cells c = .ok c' ∧ c'.length = c.length ∧
        ∀ i, c'[i]? = if i ∈ cells then some (V i) else c[i]?
  | [], c, _ => ⟨c, rfl, rfl, fun i => by simp⟩
  | k :: ks, c, h => by
    obtain ⟨hk, hf⟩ := h k List.mem_cons_self
    obtain ⟨c', h1, h2, h3⟩ := putCells_spec f V ks (c.set k (V k))
      (fun i hi => by simpa using h i (List.mem_cons_of_mem _ hi))
    refine ⟨c', ?_, by simpa using h2, fun i => ?_⟩
    · unfold putCells at h1 ⊢
      rw [List.foldlM_cons]
      simp only [hf, Out.ok_bind, hk, if_true]
      exact h1
    · rw [h3 i]
      by_cases hi : i ∈ ks
      · simp [hi]
      · by_cases hik : i = k
        · subst hik; simp [hi, hk]
        · have hki : ¬ k = i := fun h => hik h.symm
          simp [hi, hik, hki]

/-- Grid cells written by the loop over `ps`. -/
def Covered {σ : Type} (back : List (List Nat)) (sol : Nat → Int → Option σ)
    (ps : List (Nat × Int)) (i : Nat) : Prop :=
  ∃ p ∈ ps, ∃ x cells, sol p.1 p.2 = some x ∧ idx back p.2 = .ok cells ∧ i ∈ cells

theorem scan_spec {σ α : Type} (miss : Missing) (back : List (List Nat))
    (sol : Nat → Int → Option σ) (f : σ → Nat → Out α) (V : Nat → α) :
    ∀ (ps : List (Nat × Int)) (c : List α),
      (miss ≠ .skip → ∀ p ∈ ps, ∃ x, sol p.1 p.2 = some x) →
      (∀ p ∈ ps, ∃ cells, idx back p.2 = .ok cells ∧ ∀ i ∈ cells, i < c.length) →
      (∀ p ∈ ps, ∀ x cells i, sol p.1 p.2 = some x → idx back p.2 = .ok cells → i ∈ cells →
        f x i = .ok (V i)) →
      ∃ c', scan miss back sol f ps c = .ok (c', true) ∧ c'.length = c.length ∧
        ∀ i, (Covered back sol ps i → c'[i]? = some (V i)) ∧
          (¬ Covered back sol ps i → c'[i]? = c[i]?)
  | [], c, _, _, _ => ⟨c, rfl, rfl, fun i => ⟨fun ⟨_, h, _⟩ => by simp at h, fun _ => rfl⟩⟩
  | (n, j) :: ps, c, hm, hb, hf => by
    obtain ⟨cells, hc, hlt⟩ := hb (n, j) List.mem_cons_self
    cases hx : sol n j with
    | none =>
      have hskip : miss = .skip := by
        by_contra h
        obtain ⟨x, hx'⟩ := hm h (n, j) List.mem_cons_self
        simp [hx] at hx'
      obtain ⟨c', h1, h2, h3⟩ := scan_spec miss back sol f V ps c
        (fun h p hp => hm h p (List.mem_cons_of_mem _ hp))
        (fun p hp => hb p (List.mem_cons_of_mem _ hp))
        (fun p hp => hf p (List.mem_cons_of_mem _ hp))
      have hcov : ∀ i, Covered back sol ((n, j) :: ps) i ↔ Covered back sol ps i := by
        intro i
        constructor
        · rintro ⟨p, hp, x, cells', e1, e2, e3⟩
          rcases List.mem_cons.mp hp with rfl | hp
          · simp [hx] at e1
          · exact ⟨p, hp, x, cells', e1, e2, e3⟩
        · rintro ⟨p, hp, r⟩
          exact ⟨p, List.mem_cons_of_mem _ hp, r⟩
      refine ⟨c', ?_, h2, fun i => ?_⟩
      · simp only [scan, hx, hskip]
        rw [hskip] at h1
        exact h1
      · rw [hcov i]; exact h3 i
    | some x =>
      obtain ⟨c1, p1, p2, p3⟩ := putCells_spec (f x) V cells c
        (fun i hi => ⟨hlt i hi, hf (n, j) List.mem_cons_self x cells i hx hc hi⟩)
      obtain ⟨c', h1, h2, h3⟩ := scan_spec miss back sol f V ps c1
        (fun h p hp => hm h p (List.mem_cons_of_mem _ hp))
        (fun p hp => by
          obtain ⟨cl, e1, e2⟩ := hb p (List.mem_cons_of_mem _ hp)
          exact ⟨cl, e1, fun i hi => by rw [p2]; exact e2 i hi⟩)
        (fun p hp => hf p (List.mem_cons_of_mem _ hp))
      refine ⟨c', ?_, by rw [h2, p2], fun i => ⟨?_, ?_⟩⟩
      · simp only [scan, hx, hc, Out.ok_bind, p1]; exact h1
      · rintro ⟨p, hp, y, cl, e1, e2, e3⟩
        by_cases hin : Covered back sol ps i
        · exact (h3 i).1 hin
        · rcases List.mem_cons.mp hp with rfl | hp
          · rw [(h3 i).2 hin, p3 i]
            simp only [hc, Out.ok.injEq] at e2
            subst e2
            rw [if_pos e3]
          · exact absurd ⟨p, hp, y, cl, e1, e2, e3⟩ hin
      · intro hno
        have hin : ¬ Covered back sol ps i := fun ⟨p, hp, r⟩ =>
          hno ⟨p, List.mem_cons_of_mem _ hp, r⟩
        rw [(h3 i).2 hin, p3 i, if_neg]
        intro hi
        exact hno ⟨(n, j), List.mem_cons_self, x, cells, hx, hc, hi⟩

/-- The backward mapping of an owned cell in a consistent mapping. -/
theorem back_owned {g : List Int} {s : MapState} (hcon : Consistent g s) (hg : g.length = s.nxyz)
    {n : Nat} {j : Int} (ho : Owns s.ranges n j) :
    ∃ cells, idx s.backward j = .ok cells ∧ (∀ i ∈ cells, i < s.nxyz) ∧
      ∀ i, i ∈ cells ↔ g[i]? = some j := by
  have hb := hcon.ranges.2.owns_bounds ho
  have hlt : j.toNat < s.backward.length := by rw [hcon.back_len]; omega
  obtain ⟨cells, hc⟩ : ∃ cells, s.backward[j.toNat]? = some cells :=
    ⟨_, List.getElem?_eq_getElem hlt⟩
  have hj : ((j.toNat : Nat) : Int) = j := by omega
  have := (hcon.back _ _ hc).2.2
  rw [hj] at this
  refine ⟨cells, ?_, fun i hi => ?_, this⟩
  · rw [← hj]; exact idx_nat hc
  · have := (this i).mp hi
    rw [← hg]
    exact (List.getElem?_eq_some_iff.mp this).1

/-- The whole loop in a module with a consistent mapping. -/
theorem scan_grid {σ α : Type} {g : List Int} {s : MapState} (hcon : Consistent g s)
    (hg : g.length = s.nxyz) (miss : Missing) (sol : Nat → Int → Option σ)
    (hsol : miss ≠ .skip → ∀ n j, Owns s.ranges n j → ∃ x, sol n j = some x)
    (f : σ → Nat → Out α) (F : σ → Nat → α)
    (hf : ∀ n j x i, Owns s.ranges n j → sol n j = some x → g[i]? = some j →
      f x i = .ok (F x i)) (c : List α) (hc : c.length = s.nxyz) :
    ∃ c', scan miss s.backward sol f (ownedCells s.ranges) c = .ok (c', true) ∧
      c'.length = s.nxyz ∧
      ∀ i j, g[i]? = some j →
        (j < 0 → c'[i]? = c[i]?) ∧
        (∀ n, Owns s.ranges n j →
          (∀ x, sol n j = some x → c'[i]? = some (F x i)) ∧
          (sol n j = none → c'[i]? = c[i]?)) := by
  have hV : ∀ i : Nat, ∃ v : Option α, ∀ n j x, Owns s.ranges n j → sol n j = some x →
      g[i]? = some j → v = some (F x i) := by
    intro i
    by_cases h : ∃ n j x, Owns s.ranges n j ∧ sol n j = some x ∧ g[i]? = some j
    · obtain ⟨n, j, x, h1, h2, h3⟩ := h
      refine ⟨some (F x i), fun n' j' x' h1' h2' h3' => ?_⟩
      rw [h3] at h3'
      simp only [Option.some.injEq] at h3'
      subst h3'
      have := hcon.ranges.2.owner_unique h1 h1'
      subst this
      rw [h2] at h2'
      simp only [Option.some.injEq] at h2'
      rw [h2']
    · exact ⟨none, fun n j x h1 h2 h3 => absurd ⟨n, j, x, h1, h2, h3⟩ h⟩
  obtain ⟨V, hV⟩ := Classical.axiomOfChoice hV
  -- run the loop with values wrapped, so that cells never written need no value
  have hcase : (∃ a : α, True) ∨ s.nxyz = 0 := by
    cases c with
    | nil => right; simpa using hc.symm
    | cons a _ => exact Or.inl ⟨a, trivial⟩
  rcases hcase with ⟨a, _⟩ | h0
  · have hW : ∀ n j x i, Owns s.ranges n j → sol n j = some x → g[i]? = some j →
        (V i).getD a = F x i := by
      intro n j x i h1 h2 h3
      rw [hV i n j x h1 h2 h3]; rfl
    obtain ⟨c', h1, h2, h3⟩ := scan_spec miss s.backward sol f (fun i => (V i).getD a)
      (ownedCells s.ranges) c
      (fun hm p hp => hsol hm p.1 p.2 ((mem_ownedCells _ _ _).mp hp))
      (fun p hp => by
        obtain ⟨cells, e1, e2, _⟩ := back_owned hcon hg ((mem_ownedCells _ _ _).mp hp)
        exact ⟨cells, e1, fun i hi => by rw [hc]; exact e2 i hi⟩)
      (fun p hp x cells i hx hcl hi => by
        have ho := (mem_ownedCells _ _ _).mp hp
        obtain ⟨cells', e1, _, e3⟩ := back_owned hcon hg ho
        rw [e1] at hcl
        simp only [Out.ok.injEq] at hcl
        subst hcl
        rw [hf p.1 p.2 x i ho hx ((e3 i).mp hi), hW p.1 p.2 x i ho hx ((e3 i).mp hi)])
    refine ⟨c', h1, by rw [h2, hc], fun i j hij => ⟨fun hneg => ?_, fun n ho => ⟨fun x hx => ?_, fun hx => ?_⟩⟩⟩
    · apply (h3 i).2
      rintro ⟨p, hp, x, cells, _, e2, e3⟩
      have ho := (mem_ownedCells _ _ _).mp hp
      obtain ⟨cells', k1, _, k3⟩ := back_owned hcon hg ho
      rw [k1] at e2
      simp only [Out.ok.injEq] at e2
      subst e2
      have hb := hcon.ranges.2.owns_bounds ho
      rw [(k3 i).mp e3] at hij
      simp only [Option.some.injEq] at hij
      omega
    · obtain ⟨cells', k1, _, k3⟩ := back_owned hcon hg ho
      rw [(h3 i).1 ⟨(n, j), (mem_ownedCells _ _ _).mpr ho, x, cells', hx, k1, (k3 i).mpr hij⟩,
        hW n j x i ho hx hij]
    · apply (h3 i).2
      rintro ⟨p, hp, x, cells, e1, e2, e3⟩
      have ho' := (mem_ownedCells _ _ _).mp hp
      obtain ⟨cells', k1, _, k3⟩ := back_owned hcon hg ho'
      rw [k1] at e2
      simp only [Out.ok.injEq] at e2
      subst e2
      rw [(k3 i).mp e3] at hij
      simp only [Option.some.injEq] at hij
      subst hij
      have := hcon.ranges.2.owner_unique ho ho'
      subst this
      rw [hx] at e1
      simp at e1
  · -- no grid cells: the mapping cannot be consistent
    have := hcon.count_max.2
    have hg0 : g = [] := List.length_eq_zero_iff.mp (by rw [hg, h0])
    rw [hg0] at this
    simp at this

end Verif.Getters
