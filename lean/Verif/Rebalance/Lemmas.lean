import Verif.Ranges.Lemmas
import Verif.Rebalance.Model
import Mathlib.Tactic.Linarith

/-! # Helper lemmas about rebalancing -/

namespace Verif.Rebalance

open Verif.Ranges

theorem truncQ_mono {x y : ℚ} (h : x ≤ y) : truncQ x ≤ truncQ y := by
  unfold truncQ
  split
  · rw [if_pos (by linarith)]
    exact Int.floor_le_floor h
  · rename_i hx
    split
    · have h1 : ⌈x⌉ ≤ 0 := Int.ceil_le.mpr (by push_cast; linarith)
      have h2 : 0 ≤ ⌊y⌋ := Int.floor_nonneg.mpr ‹_›
      omega
    · exact Int.ceil_le_ceil h

theorem truncQ_add_nat (x : ℚ) (m : Int) (hm : 0 ≤ m) : truncQ (x + m) ≤ truncQ x + m := by
  have hmq : (0 : ℚ) ≤ m := by exact_mod_cast hm
  unfold truncQ
  by_cases hx : 0 ≤ x
  · rw [if_pos hx, if_pos (by linarith), Int.floor_add_intCast]
  · rw [if_neg hx]
    split
    · rw [Int.floor_add_intCast]
      have := Int.floor_le_ceil x
      omega
    · rw [Int.ceil_add_intCast]

theorem truncQ_zero : truncQ 0 = 0 := by simp [truncQ]

/-- Properties that make a shift function keep last cells strictly increasing. -/
structure GoodShift (s : Int → Int) : Prop where
  zero : s 0 = 0
  mono : ∀ x y, x ≤ y → s x ≤ s y
  lip : ∀ x y, x ≤ y → s y ≤ s x + (y - x)

theorem shiftThread_good (f : ℚ) (h0 : 0 ≤ f) (h1 : f ≤ 1) : GoodShift (shiftThread f) := by
  refine ⟨by simp [shiftThread, truncQ_zero], ?_, ?_⟩
  · intro x y h
    apply truncQ_mono
    have : (x : ℚ) ≤ y := by exact_mod_cast h
    nlinarith
  · intro x y h
    have hq : (0 : ℚ) ≤ ((y - x : Int) : ℚ) := by exact_mod_cast (by omega : 0 ≤ y - x)
    have h2 : (y : ℚ) * f ≤ x * f + ((y - x : Int) : ℚ) := by
      push_cast at hq ⊢
      nlinarith
    exact le_trans (truncQ_mono h2) (truncQ_add_nat _ _ (by omega))

theorem truncQ_eq_zero {x : ℚ} (h : truncQ x = 0) : -1 < x ∧ x < 1 := by
  unfold truncQ at h
  split at h
  · have h1 := Int.lt_floor_add_one x
    rw [h] at h1
    push_cast at h1
    exact ⟨by linarith, by linarith⟩
  · have h1 := Int.ceil_lt_add_one x
    have h2 : x ≤ ⌈x⌉ := Int.le_ceil x
    rw [h] at h1 h2
    push_cast at h1 h2
    exact ⟨by linarith, by linarith⟩

theorem shiftCell_good (f : ℚ) (h0 : 1 / 2 ≤ f) (h1 : f ≤ 1) : GoodShift (shiftCell f) := by
  have g := shiftThread_good f (by linarith) h1
  have small : ∀ x : Int, shiftThread f x = 0 → -1 ≤ x ∧ x ≤ 1 := by
    intro x hx
    obtain ⟨a, b⟩ := truncQ_eq_zero hx
    constructor
    · by_contra hc
      have : (x : ℚ) ≤ -2 := by exact_mod_cast (by omega : x ≤ -2)
      nlinarith
    · by_contra hc
      have : (2 : ℚ) ≤ x := by exact_mod_cast (by omega : 2 ≤ x)
      nlinarith
  have e : ∀ x, shiftCell f x = if shiftThread f x = 0 then x else shiftThread f x := fun _ => rfl
  refine ⟨by simp [e, g.zero], ?_, ?_⟩
  all_goals
    intro x y hxy
    rw [e, e]
    have m := g.mono x y hxy
    have l := g.lip x y hxy
    have z := g.zero
    have sx := small x
    have sy := small y
    have px : 0 ≤ x → 0 ≤ shiftThread f x ∧ shiftThread f x ≤ x := fun hx => by
      have a := g.mono 0 x hx
      have b := g.lip 0 x hx
      omega
    have py : 0 ≤ y → 0 ≤ shiftThread f y ∧ shiftThread f y ≤ y := fun hy => by
      have a := g.mono 0 y hy
      have b := g.lip 0 y hy
      omega
    have nx : x ≤ 0 → x ≤ shiftThread f x ∧ shiftThread f x ≤ 0 := fun hx => by
      have a := g.mono x 0 hx
      have b := g.lip x 0 hx
      omega
    have ny : y ≤ 0 → y ≤ shiftThread f y ∧ shiftThread f y ≤ 0 := fun hy => by
      have a := g.mono y 0 hy
      have b := g.lip y 0 hy
      omega
    split <;> split <;> omega

/-- The last cells `es` describe consecutive non-empty ranges from `a` up to `b`. -/
def Ends : Int → Int → List Int → Prop
  | a, b, [] => a = b
  | a, b, e :: es => a ≤ e ∧ Ends (e + 1) b es

theorem Contig.ends {a b : Int} {rs : List (Int × Int)} (h : Contig a b rs) :
    Ends a b (rs.map Prod.snd) := by
  induction rs generalizing a with
  | nil => exact h
  | cons r rs ih =>
    obtain ⟨h1, h2, h3⟩ := h
    exact ⟨by omega, ih h3⟩

theorem Ends.contig {a b : Int} {es : List Int} (h : Ends a b es) : Contig a b (fromEnds a es) := by
  induction es generalizing a with
  | nil => exact h
  | cons e es ih => exact ⟨rfl, h.1, ih h.2⟩

theorem fromEnds_length (a : Int) (es : List Int) : (fromEnds a es).length = es.length := by
  induction es generalizing a with
  | nil => rfl
  | cons e es ih => simp [fromEnds, ih]

theorem blendEnds_length (s : Int → Int) (os ns : List Int) (h : os.length = ns.length) :
    (blendEnds s os ns).length = os.length := by
  induction os generalizing ns with
  | nil =>
    cases ns with
    | nil => rfl
    | cons n ns => simp at h
  | cons o os ih =>
    cases ns with
    | nil => simp at h
    | cons n ns =>
      cases os with
      | nil =>
        cases ns with
        | nil => rfl
        | cons _ _ => simp at h
      | cons o' os =>
        cases ns with
        | nil => simp at h
        | cons n' ns =>
          simp only [blendEnds, List.length_cons]
          rw [ih (n' :: ns) (by simpa using h)]
          rfl

theorem blend_step {s : Int → Int} (g : GoodShift s) {o n o' n' : Int} (h1 : o + 1 ≤ o')
    (h2 : n + 1 ≤ n') : o + s (n - o) + 1 ≤ o' + s (n' - o') := by
  by_cases hd : n - o ≤ n' - o'
  · have := g.mono _ _ hd; omega
  · have := g.lip (n' - o') (n - o) (by omega); omega

theorem blend_ends {s : Int → Int} (g : GoodShift s) (os ns : List Int) (o n c b : Int)
    (ho : Ends (o + 1) b os) (hn : Ends (n + 1) b ns) (hl : os.length = ns.length)
    (hc : c ≤ o + s (n - o)) : Ends c b (blendEnds s (o :: os) (n :: ns)) := by
  induction os generalizing ns o n c with
  | nil =>
    cases ns with
    | cons _ _ => simp at hl
    | nil =>
      simp only [Ends] at ho hn
      have : n - o = 0 := by omega
      rw [this, g.zero] at hc
      exact ⟨by omega, by simp only [Ends]; omega⟩
  | cons o' os ih =>
    cases ns with
    | nil => simp at hl
    | cons n' ns =>
      refine ⟨hc, ?_⟩
      exact ih ns o' n' _ ho.2 hn.2 (by simpa using hl) (blend_step g ho.1 hn.1)

theorem blend_partition {s : Int → Int} (g : GoodShift s) {b : Int} {os ns : List Int}
    (ho : Ends 0 b os) (hn : Ends 0 b ns) (hl : os.length = ns.length) :
    Contig 0 b (fromEnds 0 (blendEnds s os ns)) := by
  cases os with
  | nil =>
    cases ns with
    | nil => exact ho
    | cons _ _ => simp at hl
  | cons o os =>
    cases ns with
    | nil => simp at hl
    | cons n ns =>
      apply Ends.contig
      apply blend_ends g os ns o n 0 b ho.2 hn.2 (by simpa using hl)
      by_cases hd : n - o ≤ 0
      · have := g.lip _ _ hd
        have z := g.zero
        have := hn.1
        omega
      · have := g.mono 0 (n - o) (by omega)
        have z := g.zero
        have := ho.1
        omega

/-! ## By cell -/

theorem scan_spec (count nth i : Nat) (total : ℚ) (start : Int) :
    ∀ (ts : List ℚ) (j : Nat) (sum : Option ℚ), ts.length + j = count → i < nth →
      start ≤ j → (count : Int) - j ≥ (nth : Int) - i →
      ∃ e j', scan count nth i total start ts j sum = .ok (e, j') ∧ start ≤ e ∧ e + 1 = (j' : Int) ∧
        (count : Int) - j' ≥ (nth : Int) - (i + 1) := by
  intro ts
  induction ts with
  | nil => intro j sum hl hi hs hc; simp at hl; omega
  | cons t ts ih =>
    intro j sum hl hi hs hc
    simp only [List.length_cons] at hl
    simp only [scan]
    split
    · rename_i h
      exact ih (j + 1) _ (by omega) hi (by push_cast; omega) (by push_cast; omega)
    · split
      · exact ⟨_, _, rfl, by omega, by push_cast; omega, by push_cast; omega⟩
      · exact ⟨_, _, rfl, by omega, by omega, by omega⟩

theorem splitWork_spec (count nth : Nat) (times : List ℚ) (total : ℚ) (ht : times.length = count) :
    ∀ (k i j : Nat), i + k + 1 = nth → (count : Int) - j ≥ (nth : Int) - i →
      ∃ rs, splitWork count nth times total k i (j : Int) j = .ok rs ∧ rs.length = k + 1 ∧
        Contig j count rs := by
  intro k
  induction k with
  | zero =>
    intro i j hk hc
    refine ⟨_, rfl, rfl, rfl, by simp only; omega, ?_⟩
    simp only [Contig]; omega
  | succ k ih =>
    intro i j hk hc
    obtain ⟨e, j', hs, h1, h2, h3⟩ := scan_spec count nth i total (j : Int) (times.drop j) j (some 0)
      (by rw [List.length_drop]; omega) (by omega) (by omega) hc
    obtain ⟨rs, hr, hl, hcon⟩ := ih (i + 1) j' (by omega) (by push_cast; omega)
    refine ⟨(j, e) :: rs, ?_, by simp [hl], rfl, h1, ?_⟩
    · simp only [splitWork, hs, Out.ok_bind, Out.pure_eq]
      rw [h2, hr]
      rfl
    · rw [h2]; exact hcon

/-! ## By worker -/

theorem argMin_lt (l : List (Int × ℚ)) : ∀ (i best : Nat) (bt : ℚ), best < i →
    argMin i l best bt < i + l.length := by
  induction l with
  | nil => intro i best bt h; simpa [argMin] using h
  | cons p l ih =>
    intro i best bt h
    obtain ⟨c, r⟩ := p
    simp only [argMin, List.length_cons]
    split
    · have := ih (i + 1) i ((c + 1) * r) (by omega); omega
    · have := ih (i + 1) best bt (by omega); omega

theorem modify_sum (l : List Int) (i : Nat) (d : Int) (h : i < l.length) :
    (l.modify i (· + d)).sum = l.sum + d := by
  induction l generalizing i with
  | nil => simp at h
  | cons x xs ih =>
    cases i with
    | zero => simp [List.modify_zero_cons]; omega
    | succ i =>
      simp only [List.modify_succ_cons, List.sum_cons]
      rw [ih i (by simpa using h)]
      omega

theorem modify_pos (l : List Int) (i : Nat) (d : Int) (hl : ∀ x ∈ l, 1 ≤ x)
    (hi : ∀ x, l[i]? = some x → 1 ≤ x + d) : ∀ x ∈ l.modify i (· + d), 1 ≤ x := by
  intro x hx
  obtain ⟨k, hk⟩ := List.mem_iff_getElem?.mp hx
  rw [List.getElem?_modify] at hk
  split at hk
  · rename_i hik
    subst hik
    cases hy : l[i]? with
    | none => rw [hy] at hk; simp at hk
    | some y =>
      rw [hy] at hk
      simp at hk
      have := hi y hy
      omega
  · exact hl x (List.mem_of_getElem? (by simpa using hk))

theorem addCells_spec (r : List ℚ) (k : Nat) : ∀ (cells : List Int), cells ≠ [] →
    cells.length = r.length → (∀ c ∈ cells, 1 ≤ c) →
    (addCells r k cells).sum = cells.sum + k ∧ (addCells r k cells).length = cells.length ∧
      ∀ c ∈ addCells r k cells, 1 ≤ c := by
  induction k with
  | zero => intro cells _ _ hp; simp [addCells]; exact hp
  | succ k ih =>
    intro cells hne hl hp
    cases cells with
    | nil => exact absurd rfl hne
    | cons c0 cs =>
      cases r with
      | nil => simp at hl
      | cons r0 rs =>
        simp only [addCells]
        have hlt := argMin_lt ((c0 :: cs).zip (r0 :: rs)).tail 1 0 ((c0 + 1) * r0) (by omega)
        have hi : argMin 1 ((c0 :: cs).zip (r0 :: rs)).tail 0 ((c0 + 1) * r0) < (c0 :: cs).length := by
          simp only [List.zip_cons_cons, List.tail_cons, List.length_zip, List.length_cons] at hlt hl ⊢
          omega
        generalize argMin 1 ((c0 :: cs).zip (r0 :: rs)).tail 0 ((c0 + 1) * r0) = m at hi
        have hne' : (c0 :: cs).modify m (· + 1) ≠ [] := by
          intro h0
          have : ((c0 :: cs).modify m (· + 1)).length = 0 := by rw [h0]; rfl
          simp at this
        obtain ⟨h1, h2, h3⟩ := ih ((c0 :: cs).modify m (· + 1)) hne' (by simpa using hl)
          (modify_pos _ _ 1 hp (fun x hx => by
            have := hp x (List.mem_of_getElem? hx); omega))
        rw [modify_sum _ _ 1 hi] at h1
        refine ⟨by rw [h1]; push_cast; omega, by rw [h2]; simp, h3⟩

theorem argMax_spec (l : List (Int × ℚ)) : ∀ (i : Nat) (best : Option Nat) (bt : ℚ),
    (∀ k, argMax i l best bt = some k → best = some k ∨
      ∃ c r, l[k - i]? = some (c, r) ∧ i ≤ k ∧ 1 < c) ∧
    (argMax i l best bt = none → best = none ∧ ∀ p ∈ l, ¬ (p.1 > 1 ∧ (p.1 - 1) * p.2 > bt)) := by
  induction l with
  | nil => intro i best bt; simp [argMax]
  | cons p l ih =>
    intro i best bt
    obtain ⟨c, r⟩ := p
    simp only [argMax]
    split
    · rename_i h
      obtain ⟨h1, h2⟩ := ih (i + 1) (some i) ((c - 1) * r)
      refine ⟨fun k hk => ?_, fun hn => ?_⟩
      · rcases h1 k hk with e | ⟨c', r', hk', hle, hc'⟩
        · right
          simp only [Option.some.injEq] at e
          subst e
          exact ⟨c, r, by simp, by omega, by omega⟩
        · right
          refine ⟨c', r', ?_, by omega, hc'⟩
          rw [show k - i = (k - (i + 1)) + 1 by omega]
          simpa using hk'
      · exact absurd (h2 hn).1 (by simp)
    · rename_i h
      obtain ⟨h1, h2⟩ := ih (i + 1) best bt
      refine ⟨fun k hk => ?_, fun hn => ?_⟩
      · rcases h1 k hk with e | ⟨c', r', hk', hle, hc'⟩
        · exact .inl e
        · right
          refine ⟨c', r', ?_, by omega, hc'⟩
          rw [show k - i = (k - (i + 1)) + 1 by omega]
          simpa using hk'
      · refine ⟨(h2 hn).1, fun p hp => ?_⟩
        rcases List.mem_cons.mp hp with e | e
        · subst e; exact h
        · exact (h2 hn).2 p e

theorem exists_gt_one (l : List Int) (h : (l.length : Int) < l.sum) : ∃ c ∈ l, 1 < c := by
  by_contra hc
  have : ∀ l : List Int, (∀ c ∈ l, c ≤ 1) → l.sum ≤ l.length := by
    intro l
    induction l with
    | nil => simp
    | cons x xs ih =>
      intro hx
      have a := hx x (by simp)
      have b := ih (fun c hc => hx c (by simp [hc]))
      simp only [List.sum_cons, List.length_cons]; push_cast; omega
  have := this l (fun c hcm => by
    by_contra h1
    exact hc ⟨c, hcm, by omega⟩)
  omega

theorem removeCells_spec (r : List ℚ) (hr : ∀ x ∈ r, 0 < x) (k : Nat) : ∀ (cells : List Int),
    cells.length = r.length → (∀ c ∈ cells, 1 ≤ c) → (cells.length : Int) + k ≤ cells.sum →
    ∃ cs, removeCells r k cells = .ok cs ∧ cs.sum = cells.sum - k ∧ cs.length = cells.length ∧
      ∀ c ∈ cs, 1 ≤ c := by
  induction k with
  | zero => intro cells _ hp _; exact ⟨cells, rfl, by simp, rfl, hp⟩
  | succ k ih =>
    intro cells hl hp hs
    simp only [removeCells]
    obtain ⟨h1, h2⟩ := argMax_spec (cells.zip r) 0 none 0
    cases hm : argMax 0 (cells.zip r) none 0 with
    | none =>
      exfalso
      obtain ⟨_, h3⟩ := h2 hm
      obtain ⟨c, hc, hc1⟩ := exists_gt_one cells (by push_cast at hs; omega)
      obtain ⟨i, hi⟩ := List.mem_iff_getElem?.mp hc
      have hilt : i < cells.length := by
        by_contra hge
        rw [List.getElem?_eq_none (by omega)] at hi
        simp at hi
      have hri : r[i]? = some (r[i]'(by omega)) := List.getElem?_eq_getElem (by omega)
      have hz : (cells.zip r)[i]? = some (c, r[i]'(by omega)) := by
        rw [List.getElem?_zip_eq_some]; exact ⟨hi, hri⟩
      have hpos := hr _ (List.mem_of_getElem? hri)
      apply h3 _ (List.mem_of_getElem? hz)
      refine ⟨hc1, ?_⟩
      have : (0 : ℚ) < (c : ℚ) - 1 := by
        have : (1 : ℚ) < c := by exact_mod_cast hc1
        linarith
      exact mul_pos this hpos
    | some i =>
      rcases h1 i hm with e | ⟨c, q, hz, _, hc⟩
      · simp at e
      · simp only [Nat.sub_zero] at hz
        rw [List.getElem?_zip_eq_some] at hz
        have hilt : i < cells.length := by
          by_contra hge
          rw [List.getElem?_eq_none (by omega)] at hz
          simp at hz
        have e1 : (fun x : Int => x - 1) = (fun x => x + (-1)) := by funext x; omega
        have hsum := modify_sum cells i (-1) hilt
        obtain ⟨cs, g1, g2, g3, g4⟩ := ih (cells.modify i (· + (-1))) (by simpa using hl)
          (modify_pos _ _ (-1) hp (fun x hx => by
            rw [hz.1] at hx; simp at hx; omega))
          (by rw [hsum]; simp; push_cast at hs; omega)
        refine ⟨cs, ?_, ?_, by rw [g3]; simp, g4⟩
        · simp only [e1]; exact g1
        · rw [g2, hsum]; push_cast; omega

theorem endsOf_spec (cells : List Int) : ∀ last : Int, (∀ c ∈ cells, 1 ≤ c) →
    Ends (last + 1) (last + 1 + cells.sum) (endsOf last cells) ∧
    (endsOf last cells).length = cells.length := by
  induction cells with
  | nil => intro last _; simp [endsOf, Ends]
  | cons c cs ih =>
    intro last hp
    have hc := hp c (by simp)
    obtain ⟨h1, h2⟩ := ih (last + c) (fun x hx => hp x (by simp [hx]))
    refine ⟨⟨by omega, ?_⟩, by simp [endsOf, h2]⟩
    simp only [List.sum_cons]
    rw [show last + 1 + (c + cs.sum) = last + c + 1 + cs.sum by omega]
    exact h1

theorem endsOf_last (cells : List Int) (last : Int) (h : cells ≠ []) :
    (endsOf last cells).getLast? = some (last + cells.sum) := by
  induction cells generalizing last with
  | nil => exact absurd rfl h
  | cons c cs ih =>
    cases cs with
    | nil => simp [endsOf]
    | cons d ds =>
      have := ih (last + c) (by simp)
      simp only [endsOf] at this ⊢
      rw [List.getLast?_cons_cons, this]
      simp only [List.sum_cons, Option.some.injEq]
      omega

end Verif.Rebalance
