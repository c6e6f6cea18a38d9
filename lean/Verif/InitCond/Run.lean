import Verif.InitCond.Lemmas
import Verif.Ranges.Lemmas

/-! # The whole call, for any reactant classes -/

namespace Verif.InitCond

open Verif.Store Verif.Mapping Verif.Grid Verif.Transfer Verif.Mixing Verif.Ranges

variable {α : Type}

theorem contig_zipIdx {b : Int} (rs : List (Int × Int)) : ∀ {a : Int} (_ : Contig a b rs) (k : Nat),
    (rs.zipIdx k).Pairwise (fun p q => p.2 ≠ q.2 ∧ ∀ c ∈ rangeCells p.1, c ∉ rangeCells q.1) ∧
    ∀ p ∈ rs.zipIdx k, k ≤ p.2 ∧ a ≤ p.1.1 ∧ p.1.1 ≤ p.1.2 := by
  induction rs with
  | nil => intro a _ k; simp
  | cons r rs ih =>
    intro a h k
    obtain ⟨h1, h2, h3⟩ := h
    obtain ⟨i1, i2⟩ := ih h3 (k + 1)
    rw [List.zipIdx_cons]
    refine ⟨List.pairwise_cons.mpr ⟨?_, i1⟩, ?_⟩
    · intro q hq
      obtain ⟨j1, j2, j3⟩ := i2 q hq
      refine ⟨by simp only; omega, ?_⟩
      intro c hc hc'
      rw [mem_rangeCells] at hc hc'
      simp only at hc
      omega
    · intro p hp
      rcases List.mem_cons.mp hp with rfl | hp
      · exact ⟨le_refl _, by simp only; omega, h2⟩
      · obtain ⟨j1, j2, j3⟩ := i2 p hp
        exact ⟨by omega, by omega, j3⟩

theorem owns_iff (rs : List (Int × Int)) (n : Nat) (c : Int) :
    Owns rs n c ↔ ∃ p ∈ rs.zipIdx, p.2 = n ∧ c ∈ rangeCells p.1 := by
  constructor
  · rintro ⟨r, h, h1, h2⟩
    exact ⟨(r, n), List.mem_zipIdx_iff_getElem?.mpr h, rfl, (mem_rangeCells _ _).mpr ⟨h1, h2⟩⟩
  · rintro ⟨p, h, rfl, hc⟩
    have := (mem_rangeCells _ _).mp hc
    exact ⟨p.1, List.mem_zipIdx_iff_getElem?.mp h, this⟩

/-- The distribution, in terms of owners. -/
theorem distribute_spec {a b : Int} {rs : List (Int × Int)} (hr : Contig a b rs) (w : Nat → Bin α) :
    (∀ k c, (∀ n, n ≠ 0 → ¬ Owns rs n c) → distribute rs w 0 k c = w 0 k c) ∧
    (∀ k c n, n ≠ 0 → Owns rs n c → distribute rs w 0 k c = none) ∧
    (∀ k c n, n ≠ 0 → Owns rs n c → k ∈ toBinKinds →
      distribute rs w n k c = (w 0 k c).or (w n k c)) ∧
    (∀ k c n, n ≠ 0 → ¬ Owns rs n c → distribute rs w n k c = w n k c) := by
  cases rs with
  | nil =>
    have hno : ∀ n c, ¬ Owns [] n c := by rintro n c ⟨r, h, _⟩; simp at h
    refine ⟨fun _ _ _ => rfl, fun _ _ n _ h => absurd h (hno n _),
      fun _ _ n _ h => absurd h (hno n _), fun _ _ _ _ _ => rfl⟩
  | cons r rs =>
    have hz := contig_zipIdx rs hr.2.2 1
    have hd : (r :: rs).zipIdx.drop 1 = rs.zipIdx 1 := by rw [List.zipIdx_cons]; rfl
    have hown : ∀ n c, n ≠ 0 → (Owns (r :: rs) n c ↔
        ∃ p ∈ rs.zipIdx 1, p.2 = n ∧ c ∈ rangeCells p.1) := by
      intro n c hn
      rw [owns_iff, List.zipIdx_cons]
      constructor
      · rintro ⟨p, hp, e, hc⟩
        rcases List.mem_cons.mp hp with rfl | hp
        · exact absurd e.symm hn
        · exact ⟨p, hp, e, hc⟩
      · rintro ⟨p, hp, e, hc⟩
        exact ⟨p, List.mem_cons_of_mem _ hp, e, hc⟩
    have h1 : ∀ p ∈ rs.zipIdx 1, p.2 ≠ 0 ∧ p.1.1 ≤ p.1.2 := fun p hp =>
      ⟨by have := (hz.2 p hp).1; omega, (hz.2 p hp).2.2⟩
    obtain ⟨d1, d2, d3⟩ := distribute_loop (rs.zipIdx 1) h1 hz.1 w
    unfold distribute
    rw [hd]
    refine ⟨?_, ?_, ?_, ?_⟩
    · intro k c h
      rw [d1, if_neg]
      rintro ⟨p, hp, hc⟩
      exact h p.2 (h1 p hp).1 ((hown _ _ (h1 p hp).1).mpr ⟨p, hp, rfl, hc⟩)
    · intro k c n hn h
      obtain ⟨p, hp, _, hc⟩ := (hown n c hn).mp h
      rw [d1, if_pos ⟨p, hp, hc⟩]
    · intro k c n hn h hk
      obtain ⟨p, hp, rfl, hc⟩ := (hown n c hn).mp h
      rw [d2 p hp]
      cases hw : w 0 k c <;> simp [hc, hk]
    · intro k c n hn h
      by_cases hp : ∃ p ∈ rs.zipIdx 1, p.2 = n
      · obtain ⟨p, hp, rfl⟩ := hp
        rw [d2 p hp, if_neg]
        rintro ⟨hc, _⟩
        exact h ((hown _ _ hn).mpr ⟨p, hp, rfl, hc⟩)
      · rw [d3 n hn (fun p h e => hp ⟨p, h, e⟩)]

theorem cellKind_iff (k : Kind) : CellKind k ↔ k ∈ toBinKinds := by
  cases k <;> simp [CellKind, toBinKinds]

theorem cellKind_block {k : Kind} (h : CellKind k) : ∃ b ∈ blocks, b.kind = k := by
  rcases h with rfl | rfl | rfl | rfl | rfl | rfl | rfl <;> simp [blocks]

/-- The call with arrays of the right size. -/
theorem run_spec (ch : Chem α) (pb : Bin α) (st : Settings) (s : MapState) (a : Args)
    {g : List Int} (hcon : Consistent g s) (sz : Sizes s st a)
    (d : ∀ c : Nat, c < s.count → CellData ch pb st s a c) (w : Nat → Bin α) :
    ∃ r, initialPhreeqc2Module ch pb st s a w = .ok r ∧
      ((∃ c, ∃ h : c < s.count, (d c h).bad) → r.code = .fail) ∧
      ((∀ c (h : c < s.count), ¬ (d c h).bad) → r.code = .ok) ∧
      (r.code = .fail →
        (∀ p, p ∈ r.errs ↔ ∃ c, ∃ h : c < s.count, p ∈ (d c h).errs) ∧
        (∀ n, n ≠ 0 → r.w n = w n) ∧
        (∀ k (m : Int), (∀ c : Nat, c < s.count → m ≠ c) → r.w 0 k m = w 0 k m) ∧
        (∀ c (h : c < s.count), (d c h).After (fun k => w 0 k c) (fun k => r.w 0 k c))) ∧
      (r.code = .ok → ∀ content, HeldByOwners CellKind s.ranges content w →
        ∃ content', HeldByOwners CellKind s.ranges content' r.w ∧
          ∀ c (h : c < s.count), (d c h).After (content c) (content' c)) := by
  obtain ⟨l, l1, l2, l3, l4, l5⟩ := loop_spec ch pb st s a d (List.range s.count)
    (fun c h => List.mem_range.mp h) List.nodup_range ⟨false, [], w 0⟩
  simp only [Bool.false_eq_true, false_or, List.not_mem_nil, List.mem_range] at l2 l3 l4 l5
  have hsz : ¬ (a.ic1.length ≠ 7 * s.nxyz ∨ (0 < a.ic2.length ∧ a.ic2.length ≠ 7 * s.nxyz) ∨
      (0 < a.fr.length ∧ a.fr.length ≠ 7 * s.nxyz)) := by
    rw [sz.ic1, sz.ic2, sz.fr]; simp
  unfold initialPhreeqc2Module
  rw [if_neg hsz, l1, Out.ok_bind]
  by_cases hf : l.failed = true
  · rw [if_pos hf]
    refine ⟨_, rfl, fun _ => rfl, ?_, ?_, fun h => by simp at h⟩
    · intro h
      obtain ⟨c, hc, _, hb⟩ := l2.mp hf
      exact absurd hb (h c hc)
    · intro _
      refine ⟨?_, fun n hn => setAt_other _ _ _ _ hn, ?_, ?_⟩
      · intro p
        rw [l3]
        constructor
        · rintro ⟨c, h, _, hp⟩; exact ⟨c, h, hp⟩
        · rintro ⟨c, h, hp⟩; exact ⟨c, h, h, hp⟩
      · intro k m h
        simp only [setAt_same]
        exact l4 k m h
      · intro c h
        simp only [setAt_same]
        exact l5 c h h
  · have hgood : ∀ c (h : c < s.count), ¬ (d c h).bad := fun c h hb => hf (l2.mpr ⟨c, h, h, hb⟩)
    rw [if_neg hf]
    refine ⟨_, rfl, ?_, fun _ => rfl, fun h => by simp at h, ?_⟩
    · rintro ⟨c, h, hb⟩; exact absurd hb (hgood c h)
    · intro _ content held
      obtain ⟨d1, d2, d3, d4⟩ := distribute_spec hcon.ranges.2 (setAt w 0 l.w0)
      classical
      refine ⟨fun c k => if CellKind k then (l.w0 k c).or (content c k) else content c k, ?_, ?_⟩
      · intro n c k hk
        have hk' := (cellKind_iff k).mp hk
        simp only [hk, if_true]
        constructor
        · intro ho
          by_cases hn : n = 0
          · subst hn
            rw [d1 k c (fun n hn' h => hn' (hcon.ranges.2.owner_unique h ho)), setAt_same]
            cases hl : l.w0 k c with
            | some e => simp
            | none =>
              have hb := hcon.ranges.2.owns_bounds ho
              have hc : ((c.toNat : Nat) : Int) = c := by omega
              have hcs : c.toNat < s.count := by omega
              have A := l5 c.toNat hcs hcs
              rw [hc] at A
              obtain ⟨b, hb1, hb2⟩ := cellKind_block hk
              have hneg : (d c.toNat hcs).N1 b < 0 := by
                by_contra hcon'
                obtain ⟨m, e, _, _, he⟩ := A.made (hgood _ hcs) b hb1 (by omega)
                rw [hb2, hl] at he
                cases he
              have := A.other k (fun b' hb' e' => by
                have : b' = b := by
                  have hnd := blocks_nodup
                  have hm : ∀ x ∈ blocks, ∀ y ∈ blocks, x.kind = y.kind → x = y := by decide
                  exact hm b' hb' b hb1 (e'.trans hb2.symm)
                subst this; exact hneg)
              rw [hl, (held 0 c k hk).1 ho] at this
              simp [← this]
          · rw [d3 k c n hn ho hk', setAt_same, setAt_other _ _ _ _ hn, (held n c k hk).1 ho]
        · intro ho
          by_cases hn : n = 0
          · subst hn
            by_cases hex : ∃ n, n ≠ 0 ∧ Owns s.ranges n c
            · obtain ⟨n, hn, h⟩ := hex
              exact d2 k c n hn h
            · rw [d1 k c (fun n hn h => hex ⟨n, hn, h⟩), setAt_same, l4 k c ?_, (held 0 c k hk).2 ho]
              intro c' hc' e
              obtain ⟨n, _, hn⟩ := hcon.ranges.2.owner (c := c) (by omega) (by omega)
              by_cases h0 : n = 0
              · subst h0; exact ho hn
              · exact hex ⟨n, h0, hn⟩
          · rw [d4 k c n hn ho, setAt_other _ _ _ _ hn, (held n c k hk).2 ho]
      · intro c h
        have A := l5 c h h
        refine ⟨fun hb => absurd hb (hgood c h), ?_, ?_⟩
        · intro k hk
          simp only
          split
          · rename_i hck
            have hl := A.other k hk
            rw [hl]
            obtain ⟨n, _, hn⟩ := hcon.ranges.2.owner (c := (c : Int)) (by omega) (by omega)
            by_cases h0 : n = 0
            · subst h0; rw [(held 0 c k hck).1 hn]; cases content c k <;> rfl
            · rw [(held 0 c k hck).2 (fun h => h0 (hcon.ranges.2.owner_unique hn h))]; rfl
          · rfl
        · intro _ b hb hn
          obtain ⟨m, e, h1, h2, h3⟩ := A.made (hgood c h) b hb hn
          refine ⟨m, e, h1, h2, ?_⟩
          simp only at h3 ⊢
          rw [h3]
          have : CellKind b.kind := by
            rw [cellKind_iff]
            have hall : ∀ b ∈ blocks, b.kind ∈ toBinKinds := by decide
            exact hall b hb
          simp [this]

end Verif.InitCond
