import Verif.CellCopy.Model
import Verif.CellCopy.Spec
import Verif.InitCond.Cases

/-! # Lemmas on `InitialPhreeqcCell2Module` -/

namespace Verif.CellCopy

open Verif.OMap Verif.NameDouble Verif.Store Verif.Mapping Verif.Grid Verif.Transfer Verif.Mixing
  Verif.Ranges Verif.InitCond

theorem getLast_max (keys : List Int) (h : keys.Pairwise (· < ·)) (n : Int)
    (hn : keys.getLast? = some n) : ∀ x ∈ keys, x ≤ n := by
  induction keys with
  | nil => simp
  | cons a l ih =>
    intro x hx
    obtain ⟨h1, h2⟩ := List.pairwise_cons.mp h
    cases l with
    | nil => simp at hn hx; omega
    | cons b l =>
      rw [List.getLast?_cons_cons] at hn
      rcases List.mem_cons.mp hx with rfl | hx
      · exact le_of_lt (h1 n (List.mem_of_getLast? hn))
      · exact ih h2 hn x hx

theorem resolve_chosen {pb : Bin Entity} {keys : List Int} (hk : KeysOf pb keys) (n m : Int) :
    (resolve keys pb n = m ∧ 0 ≤ m) ↔ Chosen pb n m := by
  unfold resolve Chosen
  by_cases h : n < 0
  · rw [if_pos h]
    cases e : keys.getLast? with
    | none =>
      have hnil : keys = [] := List.getLast?_eq_none_iff.mp e
      have h0 : nextNumber keys = 0 := by unfold nextNumber; rw [e]
      rw [h0, if_neg (by simp)]
      constructor
      · omega
      · rintro ⟨_, h2, _⟩
        have := (hk.2 m).mpr h2
        rw [hnil] at this
        cases this
    | some x =>
      have h0 : nextNumber keys = x + 1 := by unfold nextNumber; rw [e]
      have hx := List.mem_of_getLast? e
      have hmax := getLast_max keys hk.1 x e
      rw [h0]
      constructor
      · rintro ⟨h1, h2⟩
        have hxm : x = m := by split at h1 <;> omega
        subst hxm
        exact ⟨h2, (hk.2 x).mp hx, by omega, fun _ y hy => hmax y ((hk.2 y).mpr hy)⟩
      · rintro ⟨h1, h2, _, h4⟩
        have := hmax m ((hk.2 m).mpr h2)
        have := h4 h x ((hk.2 x).mp hx)
        rw [if_pos (by omega)]
        omega
  · rw [if_neg h]
    split
    · rename_i hn
      constructor
      · omega
      · rintro ⟨_, h2, h3, _⟩
        rw [h3 (by omega)] at h2
        exact absurd hn h2
    · rename_i hn
      constructor
      · rintro ⟨rfl, h2⟩
        exact ⟨h2, hn, fun _ => rfl, fun h' => absurd h' h⟩
      · rintro ⟨h1, _, h3, _⟩
        exact ⟨(h3 (by omega)).symm, h1⟩

theorem cellBin_apply (pb : Bin Entity) (m : Int) (k : Kind) (x : Int) :
    cellBin pb m k x = if k ∈ toBinKinds ∧ x = m then pb k m else none := by
  unfold cellBin
  rw [foldl_erase, phreeqc2bin_apply]
  by_cases h1 : k ∈ toBinKinds
  · have h2 : k ∉ [Kind.mix, .reaction, .temperature, .pressure] := by
      revert h1; cases k <;> decide
    rw [if_neg (fun h => h2 h.1)]
    by_cases h3 : x = m
    · subst h3
      cases e : pb k x <;> simp [h1, Store.empty]
    · simp [h3, Store.empty]
  · by_cases h3 : x = m <;> simp [h1, h3, Store.empty]

/-- The mixture of one part. -/
theorem one_part {E : Type} (ents : Int → Option E) (X : E → ℚ) (m : Int) (f : ℚ) :
    wsum X (parts ents (Mix.add [] m f)) = f * (ents m).elim 0 X := by
  rw [parts_insert ents X m f [] List.Pairwise.nil]
  simp [parts, wsum]

theorem stock_cellBin {F : Name → Name} {T : GasType} {pb : Bin Entity} (h : Stock F T pb) (m : Int) :
    Stock F T (cellBin pb m) := by
  have key : ∀ k n e, cellBin pb m k n = some e → pb k n = some e := by
    intro k n e he
    rw [cellBin_apply] at he
    split at he
    · rename_i h'
      rw [h'.2]; exact he
    · cases he
  exact ⟨fun n e he => h.sols n e (key _ _ _ he), fun k n e h1 h2 he => h.rxs k n e h1 h2 (key _ _ _ he)⟩

theorem factor_idx (por rv : ℚ) (u : Nat) (hu : u ≤ 2) :
    ∃ pf, idx (porosityFactor por rv) (u : Int) = .ok pf ∧ ∀ φ, Factor por rv u φ → φ = pf := by
  have : u = 0 ∨ u = 1 ∨ u = 2 := by omega
  rcases this with rfl | rfl | rfl
  · exact ⟨rv, rfl, fun φ h => by cases h; rfl⟩
  · exact ⟨rv * por, rfl, fun φ h => by cases h; rfl⟩
  · exact ⟨rv * (1 - por), rfl, fun φ h => by cases h; rfl⟩

section

variable {F : Name → Name} {T : GasType}

/-- The steps for the kinds read only their own kind. -/
theorem solids_spec (units : Kind → Nat) (hu : ∀ k, units k ≤ 2) (por rv : ℚ) (m c : Int)
    (b : Bin Entity) (hst : Stock F T b) (ks : List Kind) : ks.Nodup →
    (∀ k ∈ ks, CellKind k ∧ k ≠ .solution) →
      ∀ b1 : Bin Entity, (∀ k ∈ ks, b1 k = b k) → ∃ b',
      ks.foldlM (putSolid real units por rv m c) b1 = .ok b' ∧ (∀ k, k ∉ ks → b' k = b1 k) ∧
      ∀ k ∈ ks, (b k m = none → b' k = b k) ∧
        ∀ e, b k m = some e → ∃ r, b' k c = some (.rx r) ∧
          ∀ q φ, Factor por rv (units k) φ → measure q k r = φ * amountOf q k e := by
    induction ks with
    | nil => intro _ _ b1 _; exact ⟨b1, rfl, fun _ _ => rfl, by simp⟩
    | cons k ks ih =>
      intro hnd hks b1 h1
      obtain ⟨hk, hnd⟩ := List.nodup_cons.mp hnd
      obtain ⟨hck, hns⟩ := hks k (List.mem_cons_self ..)
      rw [List.foldlM_cons]
      have hstep : ∃ b2, putSolid real units por rv m c b1 k = .ok b2 ∧
          (∀ k', k' ≠ k → b2 k' = b1 k') ∧ (b k m = none → b2 k = b k) ∧
          ∀ e, b k m = some e → ∃ r, b2 k c = some (.rx r) ∧
            ∀ q φ, Factor por rv (units k) φ → measure q k r = φ * amountOf q k e := by
        unfold putSolid
        rw [h1 k (List.mem_cons_self ..)]
        split
        · rename_i hn
          exact ⟨b1, rfl, fun _ _ => rfl, fun _ => h1 k (List.mem_cons_self ..),
            fun e he => by rw [hn] at he; cases he⟩
        · rename_i hn
          obtain ⟨pf, hpf, hφ⟩ := factor_idx por rv (units k) (hu k)
          obtain ⟨r, hr, hm⟩ := realMix_spec hst hns hck (Mix.add [] m pf)
          rw [hpf, Out.ok_bind]
          have hr' : real.mix k (b k) (Mix.add [] m pf) = .ok (.rx r) := hr
          rw [hr', Out.ok_bind]
          refine ⟨_, rfl, ?_, fun h => absurd h hn, ?_⟩
          · intro k' hk'
            funext x
            simp [Store.set, hk']
          · intro e he
            refine ⟨r, by simp [Store.set], ?_⟩
            intro q φ hf
            rw [hm q, one_part, he, hφ φ hf]
            rfl
      obtain ⟨b2, e2, o2, n2, s2⟩ := hstep
      rw [e2, Out.ok_bind]
      have h2 : ∀ k' ∈ ks, b2 k' = b k' := by
        intro k' hk'
        rw [o2 k' (fun h => hk (h ▸ hk')), h1 k' (List.mem_cons_of_mem _ hk')]
      obtain ⟨b3, e3, o3, s3⟩ := ih hnd (fun k' hk' => hks k' (List.mem_cons_of_mem _ hk')) b2 h2
      refine ⟨b3, e3, ?_, ?_⟩
      · intro k' hk'
        rw [List.mem_cons, not_or] at hk'
        rw [o3 k' hk'.2, o2 k' hk'.1]
      · intro k' hk'
        rcases List.mem_cons.mp hk' with rfl | hk'
        · rw [o3 k' hk]
          exact ⟨n2, s2⟩
        · exact s3 k' hk'

theorem build_spec {pb : Bin Entity} (hst : Stock F T pb) {st : Settings} (hu : ∀ k, st.units k ≤ 2)
    {m : Int} (hm : pb .solution m ≠ none) {por sat rv : ℚ} {j : Nat} (c : Int)
    (hp : st.por[j]? = some por) (hs : st.sat[j]? = some sat) (hr : st.rv[j]? = some rv)
    (hp0 : 0 ≤ por) (hs0 : 0 ≤ sat) (hr0 : 0 ≤ rv) :
    ∃ b, build real pb st m j c = .ok b ∧ Copied pb m st.units por sat rv (fun k => b k c) ∧
      ∀ k, CellKind k → pb k m = none → b k c = none := by
  have hB := stock_cellBin hst m
  have hrow : ∀ k, CellKind k → cellBin pb m k m = pb k m := by
    intro k hk; rw [cellBin_apply, if_pos ⟨(cellKind_iff k).mp hk, rfl⟩]
  have hsol : CellKind .solution := .inl rfl
  unfold build
  rw [idx_nat hp, Out.ok_bind, idx_nat hr, Out.ok_bind, idx_nat hs, Out.ok_bind]
  have hm' : cellBin pb m .solution m ≠ none := by rw [hrow _ hsol]; exact hm
  obtain ⟨mx, s, e1, e2, e3⟩ := solution_spec hB m (-1) (f1 := 1) hm' (by omega) hp0 hs0 hr0
    (by decide +kernel) (by decide +kernel)
  have hput : putSolution real por sat rv m c (cellBin pb m) =
      .ok (Store.set (cellBin pb m) .solution c (.sol s)) := by
    unfold putSolution
    unfold solutionMix at e1
    cases he : cellBin pb m .solution m with
    | none => exact absurd he hm'
    | some e =>
      rw [he] at e1
      dsimp only at e1 ⊢
      split at e1
      · cases e1
      · rename_i hv
        rw [if_neg (by omega), one_mul] at e1
        cases e1
        rw [if_neg hv]
        have e2' : real.mix .solution (cellBin pb m .solution)
          (Mix.add [] m (por * sat * rv / real.vol e)) = .ok (.sol s) := e2
        rw [e2', Out.ok_bind]
  rw [hput, Out.ok_bind]
  -- the other kinds are those of `cellBin`
  have hb1 : ∀ k ∈ solidKinds, Store.set (cellBin pb m) .solution c (.sol s) k = cellBin pb m k := by
    intro k hk
    have : k ≠ .solution := by revert hk; cases k <;> decide
    funext x; simp [Store.set, this]
  have hks : ∀ k ∈ solidKinds, CellKind k ∧ k ≠ .solution := by
    intro k hk
    rw [cellKind_iff]
    revert hk; cases k <;> decide
  obtain ⟨b, hb, hother, hks'⟩ := solids_spec st.units hu por rv m c (cellBin pb m) hB solidKinds
    (by decide) hks _ hb1
  have hmem : ∀ k, CellKind k → k ≠ .solution → k ∈ solidKinds := by
    intro k hk
    rw [cellKind_iff] at hk
    revert hk; cases k <;> decide
  refine ⟨b, hb, ⟨⟨s, ?_, ?_⟩, ?_⟩, ?_⟩
  · rw [hother _ (by decide)]
    simp [Store.set]
  · intro X hX
    have := e3 X hX
    rw [hrow _ hsol] at this
    rw [this]
    simp [second]
  · intro k e hk hns he
    obtain ⟨_, h2⟩ := hks' k (hmem k hk hns)
    rw [hrow k hk] at h2
    exact h2 e he
  · intro k hk hn
    by_cases hns : k = .solution
    · rw [hns] at hn; exact absurd hn hm
    · obtain ⟨h1, _⟩ := hks' k (hmem k hk hns)
      rw [h1 (by rw [hrow k hk]; exact hn), cellBin_apply]
      split
      · exact hn
      · rfl

/-! ## Giving the cell to its worker -/

theorem give_spec {pb : Bin Entity} {st : Settings} {m j c : Int} {b : Bin Entity}
    (hb : build real pb st m j c = .ok b) (L : List ((Int × Int) × Nat))
    (hnd : L.Pairwise (fun p q => p.2 ≠ q.2)) : ∀ w : Nat → Bin Entity,
    ∃ w', L.foldlM (giveTo real pb st m j c) w = .ok w' ∧
      (∀ i, (∃ p ∈ L, p.2 = i ∧ p.1.1 ≤ c ∧ c ≤ p.1.2) → w' i = bin2phreeqc (w i) b c) ∧
      ∀ i, (¬ ∃ p ∈ L, p.2 = i ∧ p.1.1 ≤ c ∧ c ≤ p.1.2) → w' i = w i := by
  induction L with
  | nil => intro w; exact ⟨w, rfl, by simp, by simp⟩
  | cons p L ih =>
    intro w
    obtain ⟨h1, h2⟩ := List.pairwise_cons.mp hnd
    have hstep : ∃ w1, giveTo real pb st m j c w p = .ok w1 ∧
        (p.1.1 ≤ c ∧ c ≤ p.1.2 → w1 p.2 = bin2phreeqc (w p.2) b c) ∧
        (¬ (p.1.1 ≤ c ∧ c ≤ p.1.2) → w1 p.2 = w p.2) ∧ ∀ i, i ≠ p.2 → w1 i = w i := by
      unfold giveTo
      split
      · rename_i h
        rw [hb, Out.ok_bind]
        exact ⟨_, rfl, fun _ => by simp [setAt], fun h' => absurd h h', fun i hi => by simp [setAt, hi]⟩
      · rename_i h
        exact ⟨w, rfl, fun h' => absurd h' h, fun _ => rfl, fun _ _ => rfl⟩
    obtain ⟨w1, e1, a1, n1, o1⟩ := hstep
    obtain ⟨w2, e2, a2, n2⟩ := ih h2 w1
    rw [List.foldlM_cons, e1, Out.ok_bind]
    refine ⟨w2, e2, ?_, ?_⟩
    · rintro i ⟨q, hq, rfl, hc⟩
      rcases List.mem_cons.mp hq with rfl | hq
      · rw [n2 q.2 (by rintro ⟨r, hr, hr2, _⟩; exact h1 r hr hr2.symm), a1 hc]
      · rw [a2 q.2 ⟨q, hq, rfl, hc⟩, o1 q.2 (h1 q hq).symm]
    · intro i hi
      rw [n2 i (fun ⟨q, hq, h⟩ => hi ⟨q, List.mem_cons_of_mem _ hq, h⟩)]
      by_cases hp : i = p.2
      · rw [hp]
        exact n1 (fun h => hi ⟨p, List.mem_cons_self .., hp.symm, h⟩)
      · exact o1 i hp

variable {g : List Int} {s : MapState} {st : Settings} {pb : Bin Entity}

theorem forward_active (R : Ready F T g s st pb) {j : Nat} {c : Nat} :
    s.forward[j]? = some (c : Int) ↔ primary s c = some j := by
  rw [R.con.fwd j c]
  unfold primary
  constructor
  · rintro ⟨cells, h1, h2⟩
    rw [h1]; exact h2
  · intro h
    exact Option.bind_eq_some_iff.mp h

theorem copied_congr {m : Int} {j : Nat} {a b : Kind → Option Entity} (h : ∀ k, CellKind k → a k = b k)
    (hc : CopiedAt pb m st j a) : CopiedAt pb m st j b := by
  obtain ⟨por, sat, rv, h1, h2, h3, ⟨h4, h5⟩⟩ := hc
  refine ⟨por, sat, rv, h1, h2, h3, ⟨?_, ?_⟩⟩
  · rw [← h _ (.inl rfl)]; exact h4
  · intro k e hk hns he
    rw [← h k hk]; exact h5 k e hk hns he

theorem step_spec (R : Ready F T g s st pb) {m : Int} (hm : pb .solution m ≠ none) (w : Nat → Bin Entity)
    (j : Nat) (hj : j < s.nxyz) (c : Nat) (hc : c < s.count) :
    ∃ w', copyStep real pb st s m w ((j : Int), (c : Int)) = .ok w' ∧
      ∀ content, HeldByOwners CellKind s.ranges content w → ∃ content',
        HeldByOwners CellKind s.ranges content' w' ∧
        (∀ x k, x ≠ (c : Int) → content' x k = content x k) ∧
        (∀ x k, CellKind k → pb k m = none → content' x k = content x k) ∧
        CopiedAt pb m st j (content' c) := by
  have gp : st.por[j]? = some (st.por[j]'(by rw [R.por]; exact hj)) := List.getElem?_eq_getElem _
  have gs : st.sat[j]? = some (st.sat[j]'(by rw [R.sat]; exact hj)) := List.getElem?_eq_getElem _
  have gr : st.rv[j]? = some (st.rv[j]'(by rw [R.rv]; exact hj)) := List.getElem?_eq_getElem _
  obtain ⟨b, hb, hcop, hnone⟩ := build_spec R.stock R.units hm (c : Int) gp gs gr
    (R.por0 _ (List.mem_of_getElem? gp)) (R.sat0 _ (List.mem_of_getElem? gs))
    (R.rv0 _ (List.mem_of_getElem? gr))
  have hpw : s.ranges.zipIdx.Pairwise (fun p q => p.2 ≠ q.2) :=
    (contig_zipIdx s.ranges R.con.ranges.2 0).1.imp (fun h => h.1)
  obtain ⟨w', e1, a1, n1⟩ := give_spec hb s.ranges.zipIdx hpw w
  refine ⟨w', ?_, ?_⟩
  · unfold copyStep
    rw [if_neg (by dsimp only; omega)]
    exact e1
  · intro content hh
    refine ⟨fun x k => if x = (c : Int) then (b k c).or (content x k) else content x k, ?_, ?_, ?_, ?_⟩
    · intro i x k hk
      obtain ⟨h1, h2⟩ := hh i x k hk
      have hiff : Owns s.ranges i (c : Int) ↔ ∃ p ∈ s.ranges.zipIdx, p.2 = i ∧ p.1.1 ≤ (c : Int) ∧ (c : Int) ≤ p.1.2 := by
        rw [owns_iff]
        simp only [mem_rangeCells]
      by_cases ho : Owns s.ranges i (c : Int)
      · rw [a1 i (hiff.mp ho), bin2phreeqc_apply]
        by_cases hx : x = (c : Int)
        · subst hx
          refine ⟨fun hox => ?_, fun hno => absurd ho hno⟩
          dsimp only
          rw [if_pos rfl, h1 hox]
          cases b k (c : Int) <;> simp
        · dsimp only
          rw [if_neg (fun h => hx h.1), if_neg hx]
          exact ⟨h1, h2⟩
      · rw [n1 i (fun h => ho (hiff.mpr h))]
        refine ⟨fun hox => ?_, h2⟩
        dsimp only
        rw [if_neg (by rintro rfl; exact ho hox)]
        exact h1 hox
    · intro x k hx
      dsimp only
      rw [if_neg hx]
    · intro x k hk hn
      dsimp only
      split
      · rename_i hx
        rw [hnone k hk hn]; rfl
      · rfl
    · refine ⟨_, _, _, gp, gs, gr, ⟨?_, ?_⟩⟩
      · obtain ⟨s', h1, h2⟩ := hcop.sol
        refine ⟨s', ?_, h2⟩
        dsimp only at h1 ⊢
        rw [if_pos rfl, h1]; rfl
      · intro k e hk hns he
        obtain ⟨r, h1, h2⟩ := hcop.solid k e hk hns he
        refine ⟨r, ?_, h2⟩
        dsimp only at h1 ⊢
        rw [if_pos rfl, h1]; rfl

theorem loop_spec (R : Ready F T g s st pb) {m : Int} (hm : pb .solution m ≠ none) (L : List (Int × Int))
    (hL : ∀ q ∈ L, ∃ j : Nat, q.1 = j ∧ s.forward[j]? = some q.2) : ∀ w : Nat → Bin Entity,
    ∃ w', L.foldlM (copyStep real pb st s m) w = .ok w' ∧
      ∀ content, HeldByOwners CellKind s.ranges content w → ∃ content',
        HeldByOwners CellKind s.ranges content' w' ∧
        (∀ x k, (∀ q ∈ L, q.2 ≠ x) → content' x k = content x k) ∧
        (∀ x k, CellKind k → pb k m = none → content' x k = content x k) ∧
        ∀ (j c : Nat), ((j : Int), (c : Int)) ∈ L → c < s.count → CopiedAt pb m st j (content' c) := by
  induction L with
  | nil =>
    intro w
    exact ⟨w, rfl, fun content h => ⟨content, h, fun _ _ _ => rfl, fun _ _ _ _ => rfl, by simp⟩⟩
  | cons q L ih =>
    intro w
    obtain ⟨j, hq1, hj⟩ := hL q (List.mem_cons_self ..)
    have ih := ih (fun q hq => hL q (List.mem_cons_of_mem _ hq))
    rw [List.foldlM_cons]
    by_cases hact : q.2 < 0 ∨ (s.count : Int) ≤ q.2
    · have : copyStep real pb st s m w q = .ok w := by unfold copyStep; rw [if_pos hact]
      rw [this, Out.ok_bind]
      obtain ⟨w', e, h⟩ := ih w
      refine ⟨w', e, fun content hh => ?_⟩
      obtain ⟨content', k1, k2, k3, k4⟩ := h content hh
      refine ⟨content', k1, fun x k hx => k2 x k (fun q' hq' => hx q' (List.mem_cons_of_mem _ hq')), k3, ?_⟩
      intro j' c' hmem hc'
      rcases List.mem_cons.mp hmem with h' | h'
      · rw [← h'] at hact
        dsimp only at hact
        omega
      · exact k4 j' c' h' hc'
    · obtain ⟨c, hcq⟩ : ∃ c : Nat, q.2 = c := ⟨q.2.toNat, by omega⟩
      have hc : c < s.count := by omega
      have hjn : j < s.nxyz := by
        rw [← R.con.fwd_len]
        exact (List.getElem?_eq_some_iff.mp hj).1
      have hqe : q = ((j : Int), (c : Int)) := Prod.ext hq1 hcq
      subst hqe
      dsimp only at hj
      obtain ⟨w1, e1, s1⟩ := step_spec R hm w j hjn c hc
      rw [e1, Out.ok_bind]
      obtain ⟨w', e, h⟩ := ih w1
      refine ⟨w', e, fun content hh => ?_⟩
      obtain ⟨c1, h1, o1, n1, d1⟩ := s1 content hh
      obtain ⟨c2, h2, o2, n2, d2⟩ := h c1 h1
      refine ⟨c2, h2, ?_, ?_, ?_⟩
      · intro x k hx
        rw [o2 x k (fun q' hq' => hx q' (List.mem_cons_of_mem _ hq')),
          o1 x k (fun h => hx _ (List.mem_cons_self ..) h.symm)]
      · intro x k hk hn
        rw [n2 x k hk hn, n1 x k hk hn]
      · intro j' c' hmem hc'
        rcases List.mem_cons.mp hmem with h' | h'
        · have e1 : j' = j := by have := congrArg Prod.fst h'; dsimp only at this; omega
          have e2 : c' = c := by have := congrArg Prod.snd h'; dsimp only at this; omega
          subst e1 e2
          by_cases hin : ∃ q ∈ L, q.2 = (c' : Int)
          · obtain ⟨q, hq, hq2⟩ := hin
            obtain ⟨j2, hj21, hj22⟩ := hL q (List.mem_cons_of_mem _ hq)
            rw [hq2, forward_active R] at hj22
            rw [forward_active R, hj22] at hj
            cases hj
            refine d2 j' c' ?_ hc
            rw [← hj21, ← hq2]
            exact hq
          · have := o2 (c' : Int)
            refine copied_congr (fun k _ => (this k ?_).symm) d1
            intro q hq hq2
            exact hin ⟨q, hq, hq2⟩
        · exact d2 j' c' h' hc'

theorem mapM_idx {β : Type} (l : List β) (cells : List Int)
    (h : ∀ x ∈ cells, 0 ≤ x ∧ x < l.length) :
    ∃ r, cells.mapM (fun j : Int => idx l j) = .ok r ∧ r.length = cells.length ∧
      (∀ q ∈ cells.zip r, ∃ j : Nat, q.1 = j ∧ l[j]? = some q.2) ∧
      ∀ (j : Nat), (j : Int) ∈ cells → ∀ y, l[j]? = some y → ((j : Int), y) ∈ cells.zip r := by
  induction cells with
  | nil => exact ⟨[], rfl, rfl, by simp, by simp⟩
  | cons x xs ih =>
    obtain ⟨r, e, hl, h1, h2⟩ := ih (fun y hy => h y (List.mem_cons_of_mem _ hy))
    obtain ⟨n, hn⟩ : ∃ n : Nat, x = n := ⟨x.toNat, by have := h x (List.mem_cons_self ..); omega⟩
    have hlt : n < l.length := by have := h x (List.mem_cons_self ..); omega
    have hg : l[n]? = some l[n] := List.getElem?_eq_getElem hlt
    refine ⟨l[n] :: r, ?_, by simp [hl], ?_, ?_⟩
    · rw [List.mapM_cons, hn, idx_nat hg, Out.ok_bind, e, Out.ok_bind]
      rfl
    · intro q hq
      rw [List.zip_cons_cons] at hq
      rcases List.mem_cons.mp hq with rfl | hq
      · exact ⟨n, hn, hg⟩
      · exact h1 q hq
    · intro j hj y hy
      rw [List.zip_cons_cons]
      rcases List.mem_cons.mp hj with hj | hj
      · have : j = n := by omega
        subst this
        rw [hg] at hy
        cases hy
        rw [hj]
        exact List.mem_cons_self ..
      · exact List.mem_cons_of_mem _ (h2 j hj y hy)

end

end Verif.CellCopy
