import Verif.Grid.Model
import Verif.Mapping.Props
import Verif.Transfer.Lemmas

/-! # What the loops compute -/

namespace Verif.Grid

open Verif.Mapping Verif.Transfer Verif.Ranges

theorem idx_nat {α : Type} {l : List α} {i : Nat} {a : α} (h : l[i]? = some a) :
    idx l (i : Int) = .ok a := by
  simp [idx, h]

theorem idx_ok {α : Type} {l : List α} {i : Int} {a : α} (h : idx l i = .ok a) :
    0 ≤ i ∧ l[i.toNat]? = some a := by
  unfold idx at h
  split at h
  · simp at h
  · split at h
    · simp only [Out.ok.injEq] at h; subst h; exact ⟨by omega, by assumption⟩
    · simp at h

theorem mem_ownedCells (rs : List (Int × Int)) (n : Nat) (j : Int) :
    (n, j) ∈ ownedCells rs ↔ Owns rs n j := by
  unfold ownedCells
  simp only [List.mem_flatMap, List.mem_map, Prod.mk.injEq, Prod.exists]
  constructor
  · rintro ⟨a, b, m, hm, c, hc, rfl, rfl⟩
    rw [List.mem_zipIdx_iff_getElem?] at hm
    rw [mem_rangeCells] at hc
    exact ⟨(a, b), hm, hc⟩
  · rintro ⟨⟨a, b⟩, hr, hc⟩
    exact ⟨a, b, n, List.mem_zipIdx_iff_getElem?.mpr hr, j, (mem_rangeCells _ _).mpr hc, rfl, rfl⟩

theorem writeComps_spec (nxyz nc i : Nat) (d c : List ℚ) (hi : i < nxyz) (hd : nc ≤ d.length)
    (m : Nat) (hm : m ≤ nc) (hc : c.length = nxyz * nc) :
    ∃ c', (List.range m).foldlM (fun c (k : Nat) => do
        let v ← idx d (k : Int)
        writeAt c (nxyz * k + i) v) c = .ok c' ∧ c'.length = c.length ∧
      ∀ i' k, i' < nxyz → k < nc →
        c'[nxyz * k + i']? = if i' = i ∧ k < m then d[k]? else c[nxyz * k + i']? := by
  induction m with
  | zero => exact ⟨c, rfl, rfl, fun i' k _ _ => by simp⟩
  | succ m ih =>
    obtain ⟨c', h1, h2, h3⟩ := ih (by omega)
    have hlt : nxyz * m + i < c'.length := by
      rw [h2, hc]
      calc nxyz * m + i < nxyz * m + nxyz := by omega
        _ = nxyz * (m + 1) := by rw [Nat.mul_succ]
        _ ≤ nxyz * nc := Nat.mul_le_mul_left _ hm
    have hdm : d[m]? = some d[m] := List.getElem?_eq_getElem (by omega)
    refine ⟨c'.set (nxyz * m + i) d[m], ?_, by simp [h2], ?_⟩
    · rw [List.range_succ, List.foldlM_append, h1]
      simp [List.foldlM_cons, idx_nat hdm, writeAt, hlt]
    · intro i' k hi' hk
      rw [List.getElem?_set]
      by_cases he : nxyz * m + i = nxyz * k + i'
      · have hkm : m = k := by
          have e1 : (nxyz * m + i) / nxyz = m := by
            rw [Nat.mul_add_div (by omega), Nat.div_eq_of_lt hi]; rfl
          have e2 : (nxyz * k + i') / nxyz = k := by
            rw [Nat.mul_add_div (by omega), Nat.div_eq_of_lt hi']; rfl
          rw [← e1, ← e2, he]
        subst hkm
        have hii : i' = i := by omega
        subst hii
        simp [hlt, hdm]
      · rw [if_neg he, h3 i' k hi' hk]
        by_cases hii : i' = i
        · subst hii
          have : k ≠ m := fun h => he (by rw [h])
          by_cases hkm : k < m
          · simp [hkm, show k < m + 1 by omega]
          · simp [hkm, show ¬ k < m + 1 by omega]
        · simp [hii]

theorem writeCells_spec (nxyz nc : Nat) (cells : List Nat) (d c : List ℚ)
    (hcells : ∀ i ∈ cells, i < nxyz) (hd : nc ≤ d.length) (hc : c.length = nxyz * nc) :
    ∃ c', writeCells nxyz nc cells d c = .ok c' ∧ c'.length = c.length ∧
      ∀ i k, i < nxyz → k < nc →
        c'[nxyz * k + i]? = if i ∈ cells then d[k]? else c[nxyz * k + i]? := by
  unfold writeCells
  induction cells generalizing c with
  | nil => exact ⟨c, rfl, rfl, fun i k _ _ => by simp⟩
  | cons a cells ih =>
    obtain ⟨c1, h1, h2, h3⟩ := writeComps_spec nxyz nc a d c (hcells a List.mem_cons_self) hd nc
      (Nat.le_refl _) hc
    obtain ⟨c2, h4, h5, h6⟩ := ih c1 (fun i hi => hcells i (List.mem_cons_of_mem _ hi))
      (by rw [h2, hc])
    refine ⟨c2, ?_, by rw [h5, h2], fun i k hi hk => ?_⟩
    · rw [List.foldlM_cons]
      have : writeComps nxyz nc a d c = .ok c1 := h1
      rw [this]
      exact h4
    · rw [h6 i k hi hk, h3 i k hi hk]
      by_cases h : i ∈ cells
      · simp [h]
      · by_cases h' : i = a
        · subst h'; simp [h, hk]
        · simp [h, h']

/-- The values a grid getter returns: grid cells mapped to reaction cell `x` hold the values of
`x`, unmapped grid cells keep what was in the array before. -/
theorem getGrid_spec {g : List Int} {s : MapState} (hcon : Consistent g s)
    (hg : g.length = s.nxyz) (nc : Nat) (init : List ℚ) (hinit : init.length = s.nxyz * nc)
    (val : Nat → Int → Out (List ℚ)) (D : Int → List ℚ)
    (hval : ∀ n j, Owns s.ranges n j → val n j = .ok (D j) ∧ (D j).length = nc) :
    ∃ c, getGrid s nc init val = .ok c ∧ c.length = s.nxyz * nc ∧
      ∀ i k x, k < nc → g[i]? = some x →
        (x < 0 → c[s.nxyz * k + i]? = init[s.nxyz * k + i]?) ∧
        (0 ≤ x → c[s.nxyz * k + i]? = (D x)[k]?) := by
  have hback : ∀ n j, Owns s.ranges n j → ∃ cells, idx s.backward j = .ok cells ∧
      (∀ i ∈ cells, i < s.nxyz) ∧ ∀ i, i ∈ cells ↔ g[i]? = some j := by
    intro n j ho
    have hb := hcon.ranges.2.owns_bounds ho
    have hlt : j.toNat < s.backward.length := by rw [hcon.back_len]; omega
    obtain ⟨cells, hc⟩ : ∃ cells, s.backward[j.toNat]? = some cells :=
      ⟨_, List.getElem?_eq_getElem hlt⟩
    have hj : ((j.toNat : Nat) : Int) = j := by omega
    have := (hcon.back _ _ hc).2.2
    rw [hj] at this
    refine ⟨cells, ?_, fun i hi => ?_, this⟩
    · rw [← hj]; exact idx_nat hc
    · have := (this i).mp hi
      rw [← hg]
      exact (List.getElem?_eq_some_iff.mp this).1
  have gen : ∀ (L : List (Nat × Int)), (∀ p ∈ L, Owns s.ranges p.1 p.2) → ∀ init : List ℚ,
      init.length = s.nxyz * nc →
      ∃ c, L.foldlM (fun c p => do
          let d ← val p.1 p.2
          let cells ← idx s.backward p.2
          writeCells s.nxyz nc cells d c) init = .ok c ∧ c.length = s.nxyz * nc ∧
        ∀ i k, i < s.nxyz → k < nc →
          ((∀ p ∈ L, g[i]? ≠ some p.2) → c[s.nxyz * k + i]? = init[s.nxyz * k + i]?) ∧
          (∀ p ∈ L, g[i]? = some p.2 → c[s.nxyz * k + i]? = (D p.2)[k]?) := by
    intro L
    induction L with
    | nil => exact fun _ init hl => ⟨init, rfl, hl, fun i k _ _ => ⟨fun _ => rfl, by simp⟩⟩
    | cons p L ih =>
      intro hL init hl
      obtain ⟨n, j⟩ := p
      have ho := hL (n, j) List.mem_cons_self
      obtain ⟨cells, hc1, hc2, hc3⟩ := hback n j ho
      obtain ⟨hv1, hv2⟩ := hval n j ho
      obtain ⟨c1, h1, h2, h3⟩ := writeCells_spec s.nxyz nc cells (D j) init hc2
        (by omega) hl
      obtain ⟨c2, h4, h5, h6⟩ := ih (fun p hp => hL p (List.mem_cons_of_mem _ hp)) c1
        (by rw [h2, hl])
      refine ⟨c2, ?_, h5, fun i k hi hk => ?_⟩
      · rw [List.foldlM_cons]
        simp only [hv1, hc1, Out.ok_bind, h1]
        exact h4
      · obtain ⟨a, b⟩ := h6 i k hi hk
        refine ⟨fun hno => ?_, fun q hq hgi => ?_⟩
        · rw [a (fun p hp => hno p (List.mem_cons_of_mem _ hp)), h3 i k hi hk, if_neg]
          intro hm
          exact hno (n, j) List.mem_cons_self ((hc3 i).mp hm)
        · by_cases hin : ∃ p ∈ L, g[i]? = some p.2
          · obtain ⟨p, hp, hgp⟩ := hin
            rw [b p hp hgp]
            rw [hgi] at hgp
            simp only [Option.some.injEq] at hgp
            rw [hgp]
          · rw [a (fun p hp h => hin ⟨p, hp, h⟩), h3 i k hi hk]
            rcases List.mem_cons.mp hq with rfl | hq
            · rw [if_pos ((hc3 i).mpr hgi)]
            · exact absurd ⟨q, hq, hgi⟩ hin
  obtain ⟨c, h1, h2, h3⟩ := gen (ownedCells s.ranges)
    (fun p hp => (mem_ownedCells _ _ _).mp hp) init hinit
  refine ⟨c, h1, h2, fun i k x hk hx => ?_⟩
  have hi : i < s.nxyz := by rw [← hg]; exact (List.getElem?_eq_some_iff.mp hx).1
  obtain ⟨a, b⟩ := h3 i k hi hk
  refine ⟨fun hneg => a (fun p hp hgp => ?_), fun hpos => ?_⟩
  · have hb := hcon.ranges.2.owns_bounds ((mem_ownedCells _ _ _).mp hp)
    rw [hx] at hgp
    simp only [Option.some.injEq] at hgp
    omega
  · obtain ⟨n, _, ho⟩ := hcon.ranges.2.owner hpos (hcon.count_max.1 x (List.mem_of_getElem? hx))
    exact b (n, x) ((mem_ownedCells _ _ _).mpr ho) hx

theorem nodup_ownedCells (rs : List (Int × Int)) : (ownedCells rs).Nodup := by
  have : ∀ (rs : List (Int × Int)) (m : Nat),
      ((rs.zipIdx m).flatMap (fun p => (rangeCells p.1).map (fun c => (p.2, c)))).Nodup ∧
      ∀ q ∈ (rs.zipIdx m).flatMap (fun p => (rangeCells p.1).map (fun c => (p.2, c))),
        m ≤ q.1 := by
    intro rs
    induction rs with
    | nil => intro m; simp
    | cons r rs ih =>
      intro m
      obtain ⟨h1, h2⟩ := ih (m + 1)
      rw [List.zipIdx_cons, List.flatMap_cons]
      refine ⟨List.nodup_append.mpr ⟨?_, h1, ?_⟩, ?_⟩
      · exact (nodup_rangeCells r).map _ (fun a b hab h => hab (by simpa using h))
      · intro a ha b hb hab
        obtain ⟨c, _, rfl⟩ := List.mem_map.mp ha
        have := h2 b hb
        rw [← hab] at this
        simp at this
      · intro q hq
        rcases List.mem_append.mp hq with hq | hq
        · obtain ⟨c, _, rfl⟩ := List.mem_map.mp hq; exact Nat.le_refl _
        · have := h2 q hq; omega
  exact (this rs 0).1

/-- What an update loop leaves: every owned cell that exists is replaced by its own new value,
everything else is unchanged. -/
theorem updateCells_spec {σ : Type} (rs : List (Int × Int)) (f : Nat → Int → σ → Out σ)
    (w : Nat → Int → Option σ) (F : Nat → Int → σ → σ)
    (hf : ∀ n j x, Owns rs n j → w n j = some x → f n j x = .ok (F n j x)) :
    ∃ w', updateCells rs f w = .ok w' ∧
      (∀ n j, Owns rs n j → w' n j = (w n j).map (F n j)) ∧
      (∀ n j, ¬ Owns rs n j → w' n j = w n j) := by
  have gen : ∀ (L : List (Nat × Int)), L.Nodup → ∀ w : Nat → Int → Option σ,
      (∀ p ∈ L, ∀ x, w p.1 p.2 = some x → f p.1 p.2 x = .ok (F p.1 p.2 x)) →
      ∃ w', L.foldlM (fun w p =>
          match w p.1 p.2 with
          | none => Out.ok w
          | some x => do
            let y ← f p.1 p.2 x
            Out.ok (fun n j => if n = p.1 ∧ j = p.2 then some y else w n j)) w = .ok w' ∧
        (∀ n j, (n, j) ∈ L → w' n j = (w n j).map (F n j)) ∧
        (∀ n j, (n, j) ∉ L → w' n j = w n j) := by
    intro L
    induction L with
    | nil => exact fun _ w _ => ⟨w, rfl, by simp, by simp⟩
    | cons p L ih =>
      intro hn w hw
      obtain ⟨hp, hn'⟩ := List.nodup_cons.mp hn
      obtain ⟨n0, j0⟩ := p
      cases hx : w n0 j0 with
      | none =>
        obtain ⟨w', h1, h2, h3⟩ := ih hn' w (fun p hp => hw p (List.mem_cons_of_mem _ hp))
        refine ⟨w', ?_, ?_, ?_⟩
        · rw [List.foldlM_cons]; simp only [hx]; exact h1
        · intro n j hm
          rcases List.mem_cons.mp hm with h | h
          · simp only [Prod.mk.injEq] at h
            obtain ⟨rfl, rfl⟩ := h
            rw [h3 n j hp, hx]; rfl
          · exact h2 n j h
        · intro n j hm
          exact h3 n j (fun h => hm (List.mem_cons_of_mem _ h))
      | some x =>
        have hfx := hw (n0, j0) List.mem_cons_self x hx
        obtain ⟨w', h1, h2, h3⟩ := ih hn'
          (fun n j => if n = n0 ∧ j = j0 then some (F n0 j0 x) else w n j)
          (by
            intro q hq y hy
            have : ¬ (q.1 = n0 ∧ q.2 = j0) := by
              rintro ⟨e1, e2⟩
              exact hp (by rw [← e1, ← e2]; exact hq)
            simp only [this, if_false] at hy
            exact hw q (List.mem_cons_of_mem _ hq) y hy)
        refine ⟨w', ?_, ?_, ?_⟩
        · rw [List.foldlM_cons]
          simp only [hx]
          simp only at hfx
          rw [hfx]
          exact h1
        · intro n j hm
          rcases List.mem_cons.mp hm with h | h
          · simp only [Prod.mk.injEq] at h
            obtain ⟨rfl, rfl⟩ := h
            rw [h3 n j hp, hx]; simp
          · rw [h2 n j h]
            have : ¬ (n = n0 ∧ j = j0) := by
              rintro ⟨rfl, rfl⟩; exact hp h
            simp [this]
        · intro n j hm
          rw [h3 n j (fun h => hm (List.mem_cons_of_mem _ h))]
          have : ¬ (n = n0 ∧ j = j0) := by
            rintro ⟨rfl, rfl⟩; exact hm List.mem_cons_self
          simp [this]
  obtain ⟨w', h1, h2, h3⟩ := gen (ownedCells rs) (nodup_ownedCells rs) w
    (fun p hp x hx => hf p.1 p.2 x ((mem_ownedCells _ _ _).mp hp) hx)
  exact ⟨w', h1, fun n j ho => h2 n j ((mem_ownedCells _ _ _).mpr ho),
    fun n j ho => h3 n j (fun h => ho ((mem_ownedCells _ _ _).mp h))⟩

end Verif.Grid
