import Verif.Ranges.Lemmas
import Verif.Mapping.Model

/-! # Helper lemmas about `CreateMapping` -/

namespace Verif.Mapping

open Verif.Ranges

/-- Positions (numbered from `i`) of the entries of a list that equal `n`. -/
def positions : Nat → List Int → Int → List Nat
  | _, [], _ => []
  | i, x :: xs, n => (if x = n then [i] else []) ++ positions (i + 1) xs n

theorem mem_positions {i k : Nat} {g : List Int} {n : Int} :
    k ∈ positions i g n ↔ i ≤ k ∧ g[k - i]? = some n := by
  induction g generalizing i with
  | nil => simp [positions]
  | cons x xs ih =>
    simp only [positions, List.mem_append, ih]
    by_cases hk : k = i
    · subst hk
      by_cases hx : x = n
      · simp [hx]
      · simp [hx]; intro h; omega
    · have h1 : k ∉ (if x = n then [i] else []) := by split <;> simp [hk]
      simp only [h1, false_or]
      constructor
      · rintro ⟨h, h2⟩
        refine ⟨by omega, ?_⟩
        rw [show k - i = (k - (i + 1)) + 1 by omega]
        simpa using h2
      · rintro ⟨h, h2⟩
        refine ⟨by omega, ?_⟩
        rw [show k - i = (k - (i + 1)) + 1 by omega] at h2
        simpa using h2

theorem positions_sorted (i : Nat) (g : List Int) (n : Int) :
    (positions i g n).Pairwise (· < ·) := by
  induction g generalizing i with
  | nil => simp [positions]
  | cons x xs ih =>
    simp only [positions]
    split
    · simp only [List.singleton_append, List.pairwise_cons]
      refine ⟨fun k hk => ?_, ih _⟩
      have := (mem_positions.mp hk).1
      omega
    · simpa using ih (i + 1)

theorem maxLoop_spec (g : List Int) :
    0 ≤ maxLoop g ∧ (∀ x ∈ g, x ≤ maxLoop g) ∧ (maxLoop g = 0 ∨ maxLoop g ∈ g) := by
  have key : ∀ (g : List Int) (c : Int),
      c ≤ g.foldl (fun c x => if x > c then x else c) c ∧
      (∀ x ∈ g, x ≤ g.foldl (fun c x => if x > c then x else c) c) ∧
      (g.foldl (fun c x => if x > c then x else c) c = c ∨
        g.foldl (fun c x => if x > c then x else c) c ∈ g) := by
    intro g
    induction g with
    | nil => intro c; simp
    | cons y ys ih =>
      intro c
      simp only [List.foldl_cons]
      obtain ⟨h1, h2, h3⟩ := ih (if y > c then y else c)
      have h4 : c ≤ (if y > c then y else c) ∧ y ≤ (if y > c then y else c) := by
        split <;> omega
      refine ⟨by omega, ?_, ?_⟩
      · intro x hx
        rcases List.mem_cons.mp hx with e | e
        · subst e; omega
        · exact h2 x e
      · by_cases hy : y > c
        · simp only [hy, if_true] at h3 ⊢
          rcases h3 with e | e
          · right; rw [e]; simp
          · right; exact List.mem_cons_of_mem _ e
        · simp only [hy, if_false] at h3 ⊢
          rcases h3 with e | e
          · left; exact e
          · right; exact List.mem_cons_of_mem _ e
  exact key g 0

theorem fillLoop_eq (count : Nat) (g : List Int) : ∀ (i : Nat) (fwd : List Int)
    (back : List (List Nat)), (∀ x ∈ g, x < count) → back.length = count →
    ∃ back', fillLoop count i g fwd back = some (fwd ++ g, back') ∧ back'.length = count ∧
      ∀ (n : Nat) (cells : List Nat), back[n]? = some cells →
        back'[n]? = some (cells ++ positions i g n) := by
  induction g with
  | nil =>
    intro i fwd back _ hb
    exact ⟨back, by simp [fillLoop], hb, by intro n c h; simpa [positions] using h⟩
  | cons x xs ih =>
    intro i fwd back hx hb
    have hxc : x < (count : Int) := hx x (by simp)
    have hnot : ¬ x ≥ (count : Int) := by omega
    obtain ⟨back', h1, h2, h3⟩ := ih (i + 1) (fwd ++ [x])
      (if x ≥ 0 then back.modify x.toNat (· ++ [i]) else back)
      (fun y hy => hx y (by simp [hy])) (by split <;> simp [hb])
    refine ⟨back', ?_, h2, ?_⟩
    · simp only [fillLoop, hnot, if_false, h1]
      simp
    · intro n cells hn
      by_cases hx0 : x ≥ 0
      · simp only [hx0, if_true] at h3
        by_cases hxn : x = (n : Int)
        · have ht : x.toNat = n := by omega
          have := h3 n (cells ++ [i]) (by simp [ht, hn])
          rw [this]; simp [positions, hxn]
        · have ht : x.toNat ≠ n := by omega
          have := h3 n cells (by simp [ht, hn])
          rw [this]; simp [positions, hxn]
      · simp only [hx0, if_false] at h3
        have hxn : x ≠ (n : Int) := by omega
        have := h3 n cells hn
        rw [this]; simp [positions, hxn]

theorem foldl_set_length (cells : List Nat) (f : List Int) :
    (cells.foldl (fun f n => f.set n (-1)) f).length = f.length := by
  induction cells generalizing f with
  | nil => rfl
  | cons c cs ih => simp [ih]

theorem foldl_set_get (cells : List Nat) (f : List Int) (i : Nat) (x : Int)
    (hx : f[i]? = some x) :
    (cells.foldl (fun f n => f.set n (-1)) f)[i]? = some (if i ∈ cells then -1 else x) := by
  induction cells generalizing f x with
  | nil => simpa using hx
  | cons c cs ih =>
    simp only [List.foldl_cons]
    have hlen : i < f.length := by
      by_contra hc
      rw [List.getElem?_eq_none (by omega)] at hx
      simp at hx
    by_cases hci : c = i
    · subst hci
      rw [ih (f.set c (-1)) (-1) (by simp [hlen])]
      simp
    · rw [ih (f.set c (-1)) x (by simp [hci, hx])]
      have : (i ∈ c :: cs) ↔ i ∈ cs := by simp [Ne.symm hci]
      simp [this]

theorem markLoop_get (back : List (List Nat)) (f : List Int) (i : Nat) (x : Int)
    (hx : f[i]? = some x) :
    (∃ cells ∈ back, i ∈ cells.tail) ∧ (markLoop f back)[i]? = some (-1) ∨
    (¬ ∃ cells ∈ back, i ∈ cells.tail) ∧ (markLoop f back)[i]? = some x := by
  unfold markLoop
  induction back generalizing f x with
  | nil => right; simpa using hx
  | cons b bs ih =>
    simp only [List.foldl_cons]
    have h1 := foldl_set_get b.tail f i x hx
    by_cases hb : i ∈ b.tail
    · simp only [hb, if_true] at h1
      left
      refine ⟨⟨b, by simp, hb⟩, ?_⟩
      rcases ih _ _ h1 with ⟨_, h⟩ | ⟨_, h⟩ <;> exact h
    · simp only [hb, if_false] at h1
      rcases ih _ _ h1 with ⟨⟨c, hc, hci⟩, h⟩ | ⟨hn, h⟩
      · exact .inl ⟨⟨c, by simp [hc], hci⟩, h⟩
      · right
        refine ⟨?_, h⟩
        rintro ⟨c, hc, hci⟩
        rcases List.mem_cons.mp hc with e | e
        · subst e; exact hb hci
        · exact hn ⟨c, e, hci⟩

theorem markLoop_length (back : List (List Nat)) (f : List Int) :
    (markLoop f back).length = f.length := by
  unfold markLoop
  induction back generalizing f with
  | nil => rfl
  | cons b bs ih => simp [ih, foldl_set_length]

/-- Everything the fill loop establishes, for the arguments `createMapping` passes. -/
theorem fill_of_max (g : List Int) :
    ∃ back, fillLoop (maxLoop g + 1).toNat 0 g [] (List.replicate (maxLoop g + 1).toNat []) =
        some (g, back) ∧ back.length = (maxLoop g + 1).toNat ∧
      ∀ n : Nat, n < (maxLoop g + 1).toNat → back[n]? = some (positions 0 g n) := by
  obtain ⟨h0, h1, _⟩ := maxLoop_spec g
  obtain ⟨back, hb, hl, hp⟩ := fillLoop_eq (maxLoop g + 1).toNat g 0 []
    (List.replicate (maxLoop g + 1).toNat [])
    (fun x hx => by have := h1 x hx; omega) (by simp)
  refine ⟨back, by simpa using hb, hl, fun n hn => ?_⟩
  have := hp n [] (by simp [hn])
  simpa using this

theorem positions_eq_nil {g : List Int} {n : Int} : positions 0 g n = [] ↔ n ∉ g := by
  constructor
  · intro h hn
    obtain ⟨i, hi⟩ := List.mem_iff_getElem?.mp hn
    have : i ∈ positions 0 g n := mem_positions.mpr ⟨by omega, by simpa using hi⟩
    rw [h] at this
    simp at this
  · intro h
    apply List.eq_nil_iff_forall_not_mem.mpr
    intro i hi
    exact h (List.mem_of_getElem? (mem_positions.mp hi).2)

theorem any_empty_iff {g : List Int} {back : List (List Nat)} {m : Nat}
    (hl : back.length = m) (hp : ∀ n : Nat, n < m → back[n]? = some (positions 0 g n)) :
    back.any List.isEmpty = false ↔ ∀ n : Nat, n < m → (n : Int) ∈ g := by
  constructor
  · intro h n hn
    by_contra hc
    have h1 := hp n hn
    rw [positions_eq_nil.mpr hc] at h1
    have h2 := List.mem_of_getElem? h1
    have : back.any List.isEmpty = true := List.any_eq_true.mpr ⟨[], h2, rfl⟩
    simp [this] at h
  · intro h
    rw [List.any_eq_false]
    intro c hc
    obtain ⟨n, hn⟩ := List.mem_iff_getElem?.mp hc
    have hlt : n < m := by
      by_contra hge
      rw [List.getElem?_eq_none (by omega)] at hn
      simp at hn
    have h1 := hp n hlt
    rw [hn] at h1
    have h2 : c = positions 0 g n := by simpa using h1
    intro he
    have h3 : c = [] := by simpa using he
    rw [h3] at h2
    exact positions_eq_nil.mp h2.symm (h n hlt)

end Verif.Mapping
