import Verif.SelNav.Model
import Verif.SelOut.Thread
import Verif.OMap.Set

/-! # Lemmas on the choice among selected outputs -/

namespace Verif.SelNav

open Verif.OMap Verif.Grid Verif.SelOut

theorem nthFrom_spec (n : Int) (l : List Int) : ∀ i : Int, i ≤ n →
    nthFrom i n l = (l[(n - i).toNat]?).getD (-3) := by
  induction l with
  | nil => intro i _; rfl
  | cons k ks ih =>
    intro i h
    unfold nthFrom
    by_cases e : i = n
    · rw [if_pos e, e]; simp
    · rw [if_neg e, ih (i + 1) (by omega)]
      have : (n - i).toNat = (n - (i + 1)).toNat + 1 := by omega
      rw [this, List.getElem?_cons_succ]

theorem foldlM_inv {α β : Type} (P : α → Prop) (f : α → β → Out α)
    (h : ∀ a b a', P a → f a b = .ok a' → P a') (l : List β) :
    ∀ a a', P a → l.foldlM f a = .ok a' → P a' := by
  induction l with
  | nil => intro a a' ha e; cases e; exact ha
  | cons b l ih =>
    intro a a' ha e
    rw [List.foldlM_cons] at e
    cases hf : f a b with
    | ok a1 => rw [hf, Out.ok_bind] at e; exact ih a1 a' (h a b a1 ha hf) e
    | throw => rw [hf] at e; cases e
    | ub => rw [hf] at e; cases e

/-- A map with the keys `ks`. -/
def Keyed (ks : List Int) (c : SMap Int Table) : Prop := Sorted c ∧ ∀ k, k ∈ keys c ↔ k ∈ ks

theorem keyed_insert {ks : List Int} {c : SMap Int Table} (h : Keyed ks c) {k : Int} {t : Table}
    (hk : find c k = some t) (t' : Table) : Keyed ks (OMap.insert c k t') := by
  refine ⟨sorted_insert h.1 _ _, fun x => ?_⟩
  rw [mem_keys_insert, h.2]
  constructor
  · rintro (rfl | h')
    · exact (h.2 _).mp ((mem_keys_iff _ _).mpr ⟨t, hk⟩)
    · exact h'
  · exact Or.inr

theorem keyed_update {ks : List Int} (bad : Out (SMap Int Table)) (hbad : ∀ x, bad ≠ .ok x)
    (F : Int × Table → Table → Out Table) (c : SMap Int Table) (p : Int × Table) (c' : SMap Int Table)
    (h : Keyed ks c)
    (e : (match find c p.1 with
        | none => bad
        | some t => do
          let t' ← F p t
          Out.ok (OMap.insert c p.1 t')) = .ok c') : Keyed ks c' := by
  cases hf : find c p.1 with
  | none => rw [hf] at e; exact absurd e (hbad _)
  | some t =>
    rw [hf] at e
    dsimp only at e
    cases hF : F p t with
    | ok t' => rw [hF, Out.ok_bind] at e; cases e; exact keyed_insert h hf t'
    | throw => rw [hF] at e; cases e
    | ub => rw [hF] at e; cases e

theorem keyed_runCell {ks : List Int} (st st' : SMap Int Table × SMap Int Table) (cell : CellRun)
    (h : Keyed ks st.2) (e : runCell st cell = .ok st') : Keyed ks st'.2 := by
  have hblank : ∀ m c, blankRow m st.2 = .ok c → Keyed ks c := fun m c e =>
    foldlM_inv _ _ (fun a b a' ha e' => keyed_update .ub (by simp) (fun _ t => t.endRow) a b a' ha e')
      m st.2 c h e
  have hsave : ∀ m c, saveRow m st.2 = .ok c → Keyed ks c := fun m c e =>
    foldlM_inv _ _ (fun a b a' ha e' => keyed_update .throw (by simp)
      (fun p t => do let s ← p.2.serialize 0; t.deSerialize s) a b a' ha (by
        rw [← e']
        cases find a b.1 with
        | none => rfl
        | some t =>
          dsimp only
          cases b.2.serialize 0 <;> rfl)) m st.2 c h e
  cases cell with
  | dry =>
    unfold runCell at e
    dsimp only at e
    cases hb : blankRow st.1 st.2 with
    | ok c => rw [hb, Out.ok_bind] at e; cases e; exact hblank _ _ hb
    | throw => rw [hb] at e; cases e
    | ub => rw [hb] at e; cases e
  | wet m =>
    unfold runCell at e
    dsimp only at e
    cases hb : saveRow m st.2 with
    | ok c => rw [hb, Out.ok_bind] at e; cases e; exact hsave _ _ hb
    | throw => rw [hb] at e; cases e
    | ub => rw [hb] at e; cases e
  | failed m =>
    unfold runCell at e
    dsimp only at e
    cases hb : blankRow m st.2 with
    | ok c => rw [hb, Out.ok_bind] at e; cases e; exact hblank _ _ hb
    | throw => rw [hb] at e; cases e
    | ub => rw [hb] at e; cases e

theorem keyed_dummy (m : SMap Int Table) : ∀ (c c' : SMap Int Table) (ks : List Int), Keyed ks c →
    m.foldlM (fun c p => do
      let t ← dummyTable p.2.heads
      Out.ok (OMap.insert c p.1 t)) c = .ok c' → Keyed (ks ++ keys m) c' := by
  induction m with
  | nil => intro c c' ks h e; cases e; simpa [keys] using h
  | cons p m ih =>
    intro c c' ks h e
    obtain ⟨t, ht, _⟩ := dummyTable_rel p.2.heads
    rw [List.foldlM_cons, ht] at e
    have := ih (OMap.insert c p.1 t) c' (ks ++ [p.1])
      ⟨sorted_insert h.1 _ _, fun k => by rw [mem_keys_insert, h.2]; simp [or_comm]⟩ e
    simpa [keys] using this

theorem runThread_keys {dummy : SMap Int Table} (hd : Sorted dummy) {cells : List CellRun}
    {c : SMap Int Table} (e : runThread dummy cells = .ok c) : keys c = keys dummy := by
  unfold runThread at e
  cases h0 : dummyMap dummy with
  | throw => rw [h0] at e; cases e
  | ub => rw [h0] at e; cases e
  | ok c0 =>
    rw [h0, Out.ok_bind] at e
    have k0 : Keyed (keys dummy) c0 := by
      have := keyed_dummy dummy [] c0 [] ⟨List.Pairwise.nil, by simp [keys]⟩ h0
      simpa using this
    cases h1 : cells.foldlM runCell (dummy, c0) with
    | throw => rw [h1] at e; cases e
    | ub => rw [h1] at e; cases e
    | ok r =>
      rw [h1, Out.ok_bind] at e
      cases e
      have k1 : Keyed (keys dummy) r.2 := foldlM_inv (fun st => Keyed (keys dummy) st.2) runCell
        (fun a b a' ha e' => keyed_runCell a a' b ha e') cells (dummy, c0) r k0 h1
      have srt : ∀ {m : SMap Int Table}, Sorted m → OSet.Sorted (keys m) := by
        intro m hm
        unfold OSet.Sorted keys
        rw [List.pairwise_map]
        exact hm
      exact OSet.ext (srt k1.1) (srt hd) k1.2

theorem setCur_fold (ns : List Int) : ∀ s : St, (∀ n ∈ ns, 0 ≤ n) →
    ns.foldl (fun s n => (setCur s n).2) s = { s with cur := (ns.getLast?).getD s.cur } := by
  induction ns with
  | nil => intro s _; rfl
  | cons n ns ih =>
    intro s h
    rw [List.foldl_cons, ih _ (fun x hx => h x (List.mem_cons_of_mem _ hx))]
    unfold setCur
    rw [if_pos (h n (List.mem_cons_self ..))]
    cases ns with
    | nil => rfl
    | cons m ns =>
      rw [List.getLast?_cons_cons]
      cases hl : (m :: ns).getLast? with
      | none => simp at hl
      | some x => rfl

theorem heads_mono (rows : List Row) : ∀ a : Abs, ∀ x ∈ a.heads, x ∈ (rows.foldl rowStep a).heads := by
  have one : ∀ (a : Abs) (op : SelOut.Op), ∀ x ∈ a.heads, x ∈ (a.step op).heads := by
    intro a op x hx
    cases op with
    | push h v =>
      change x ∈ (if h ∈ a.heads then a.heads else a.heads ++ [h])
      split_ifs
      · exact hx
      · exact List.mem_append_left _ hx
    | endRow =>
      change x ∈ (if a.heads = [] then a else { a with done := a.done ++ [a.cur], cur := [] }).heads
      split_ifs <;> exact hx
  have many : ∀ (ops : List SelOut.Op) (a : Abs), ∀ x ∈ a.heads, x ∈ (ops.foldl Abs.step a).heads := by
    intro ops
    induction ops with
    | nil => intro a x hx; exact hx
    | cons op ops ih => intro a x hx; exact ih _ x (one a op x hx)
  induction rows with
  | nil => intro a x hx; exact hx
  | cons r rows ih => intro a x hx; exact ih _ x (many _ a x hx)

end Verif.SelNav
