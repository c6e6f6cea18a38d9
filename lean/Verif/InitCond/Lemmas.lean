import Verif.InitCond.Spec
import Verif.Grid.Lemmas
import Verif.Store.Lemmas

/-! # Helper lemmas about initial conditions -/

namespace Verif.InitCond

open Verif.Store Verif.Mapping Verif.Grid Verif.Transfer Verif.Mixing Verif.Ranges

variable {α : Type}

/-! ## One cell -/

/-- The entry used by block `b` for grid cell `j`. -/
def at' {β : Type} (nxyz : Nat) (l : List β) (j : Nat) (b : Block) : Option β :=
  l[b.pos * nxyz + j]?

/-- The reactant of a block is a mixture made by the class. -/
def Made (ch : Chem α) (pb : Bin α) (units : Kind → Nat) (por sat rv : ℚ) (k : Kind)
    (n1 n2 : Int) (f1 : ℚ) (x : Option α) : Prop :=
  ∃ m e, blockMix ch pb units por sat rv k n1 n2 f1 = .ok m ∧ ch.mix k (pb k) m = .ok e ∧
    x = some e

theorem missing_nil (pb : Bin α) (b : Block) (n1 n2 : Int) :
    missing pb b n1 n2 = [] ↔ (0 ≤ n1 → pb b.kind n1 ≠ none) ∧ (0 ≤ n2 → pb b.second n2 ≠ none) := by
  unfold missing
  rw [List.append_eq_nil_iff]
  constructor
  · rintro ⟨h1, h2⟩
    constructor
    · intro h e; rw [if_pos ⟨h, e⟩] at h1; cases h1
    · intro h e; rw [if_pos ⟨h, e⟩] at h2; cases h2
  · rintro ⟨h1, h2⟩
    constructor
    · rw [if_neg]; exact fun h => h1 h.1 h.2
    · rw [if_neg]; exact fun h => h2 h.1 h.2

section Cell

variable (ch : Chem α) (pb : Bin α) (units : Kind → Nat) (nxyz : Nat) (a : Args)
  (por sat rv : ℚ) (j : Nat) (n : Int) (N1 N2 : Block → Int) (F : Block → ℚ)

theorem blocks_run (bs : List Block) (hnd : (bs.map Block.kind).Nodup)
    (h1 : ∀ b ∈ bs, at' nxyz a.ic1 j b = some (N1 b))
    (h2 : ∀ b ∈ bs, at' nxyz a.ic2 j b = some (N2 b))
    (hF : ∀ b ∈ bs, at' nxyz a.fr j b = some (F b))
    (hm : ∀ b ∈ bs, 0 ≤ N1 b → missing pb b (N1 b) (N2 b) = [] →
      ∃ x, Made ch pb units por sat rv b.kind (N1 b) (N2 b) (F b) x) :
    ∀ st : List (Kind × Int) × Bin α, ∃ bin,
      bs.foldlM (runBlock ch pb units nxyz a por sat rv j n) st =
        .ok (st.1 ++ bs.flatMap (fun b => missing pb b (N1 b) (N2 b)), bin) ∧
      (∀ k m, m ≠ n → bin k m = st.2 k m) ∧
      (∀ k, (∀ b ∈ bs, b.kind = k → N1 b < 0) → bin k n = st.2 k n) ∧
      (st.1 ++ bs.flatMap (fun b => missing pb b (N1 b) (N2 b)) = [] →
        ∀ b ∈ bs, 0 ≤ N1 b →
          Made ch pb units por sat rv b.kind (N1 b) (N2 b) (F b) (bin b.kind n)) := by
  induction bs with
  | nil => intro st; exact ⟨st.2, by simp, by simp, by simp, by simp⟩
  | cons b bs ih =>
    intro st
    rw [List.map_cons, List.nodup_cons] at hnd
    have ih := ih hnd.2 (fun b hb => h1 b (List.mem_cons_of_mem _ hb))
      (fun b hb => h2 b (List.mem_cons_of_mem _ hb)) (fun b hb => hF b (List.mem_cons_of_mem _ hb))
      (fun b hb => hm b (List.mem_cons_of_mem _ hb))
    have e1 := idx_nat (h1 b List.mem_cons_self)
    have e2 := idx_nat (h2 b List.mem_cons_self)
    have eF := idx_nat (hF b List.mem_cons_self)
    have key : ∃ bin0, runBlock ch pb units nxyz a por sat rv j n st b =
          .ok (st.1 ++ missing pb b (N1 b) (N2 b), bin0) ∧
        (∀ k m, m ≠ n → bin0 k m = st.2 k m) ∧
        (∀ k, (b.kind = k → N1 b < 0) → bin0 k n = st.2 k n) ∧
        (st.1 ++ missing pb b (N1 b) (N2 b) = [] → 0 ≤ N1 b →
          Made ch pb units por sat rv b.kind (N1 b) (N2 b) (F b) (bin0 b.kind n)) := by
      unfold runBlock
      rw [e1, Out.ok_bind, e2, Out.ok_bind]
      simp only
      by_cases he : st.1 ++ missing pb b (N1 b) (N2 b) = []
      · rw [if_pos he, eF, Out.ok_bind]
        by_cases hn : 0 ≤ N1 b
        · obtain ⟨x, m, e, hb, hmx, rfl⟩ := hm b List.mem_cons_self hn (List.append_eq_nil_iff.mp he).2
          rw [if_pos hn, hb, Out.ok_bind, hmx, Out.ok_bind]
          refine ⟨_, rfl, ?_, ?_, ?_⟩
          · intro k m' hne; simp [Store.set, hne]
          · intro k hk
            have : k ≠ b.kind := by rintro rfl; have := hk rfl; omega
            simp [Store.set, this]
          · intro _ _; exact ⟨m, e, hb, hmx, by simp [Store.set]⟩
        · rw [if_neg hn]
          exact ⟨_, rfl, fun _ _ _ => rfl, fun _ _ => rfl, fun _ h => absurd h hn⟩
      · rw [if_neg he]
        exact ⟨_, rfl, fun _ _ _ => rfl, fun _ _ => rfl, fun h => absurd h he⟩
    obtain ⟨bin0, k1, k2, k3, k4⟩ := key
    obtain ⟨bin, i1, i2, i3, i4⟩ := ih (st.1 ++ missing pb b (N1 b) (N2 b), bin0)
    simp only at i1 i2 i3 i4
    refine ⟨bin, ?_, ?_, ?_, ?_⟩
    · rw [List.foldlM_cons, k1, Out.ok_bind, i1, List.flatMap_cons, List.append_assoc]
    · intro k m h; rw [i2 k m h, k2 k m h]
    · intro k h
      rw [i3 k (fun b hb => h b (List.mem_cons_of_mem _ hb)), k3 k (h b List.mem_cons_self)]
    · intro he
      rw [List.flatMap_cons, ← List.append_assoc] at he
      intro b' hb' hn
      rcases List.mem_cons.mp hb' with rfl | hb'
      · rw [i3 b'.kind]
        · exact k4 (List.append_eq_nil_iff.mp he).1 hn
        · intro b hb e
          exact absurd (List.mem_map.mpr ⟨b, hb, e⟩) hnd.1
      · exact i4 he b' hb' hn

end Cell

theorem blocks_nodup : (blocks.map Block.kind).Nodup := by decide

/-- One cell. -/
theorem cellInitialize_spec (ch : Chem α) (pb : Bin α) (st : Settings) (nxyz : Nat) (a : Args)
    (por sat rv : ℚ) (j : Nat) (n : Int) (N1 N2 : Block → Int) (F : Block → ℚ) (w0 : Bin α)
    (hp : st.por[j]? = some por) (hs : st.sat[j]? = some sat) (hr : st.rv[j]? = some rv)
    (h1 : ∀ b ∈ blocks, at' nxyz a.ic1 j b = some (N1 b))
    (h2 : ∀ b ∈ blocks, at' nxyz a.ic2 j b = some (N2 b))
    (hF : ∀ b ∈ blocks, at' nxyz a.fr j b = some (F b))
    (hm : ∀ b ∈ blocks, 0 ≤ N1 b → missing pb b (N1 b) (N2 b) = [] →
      ∃ x, Made ch pb st.units por sat rv b.kind (N1 b) (N2 b) (F b) x) :
    ∃ w0', cellInitialize ch pb st nxyz a j n w0 =
        .ok (blocks.flatMap (fun b => missing pb b (N1 b) (N2 b)), w0') ∧
      (blocks.flatMap (fun b => missing pb b (N1 b) (N2 b)) ≠ [] → w0' = w0) ∧
      (∀ k m, m ≠ n → w0' k m = w0 k m) ∧
      (∀ k, (∀ b ∈ blocks, b.kind = k → N1 b < 0) → w0' k n = w0 k n) ∧
      (blocks.flatMap (fun b => missing pb b (N1 b) (N2 b)) = [] →
        ∀ b ∈ blocks, 0 ≤ N1 b →
          Made ch pb st.units por sat rv b.kind (N1 b) (N2 b) (F b) (w0' b.kind n)) := by
  obtain ⟨bin, i1, i2, i3, i4⟩ := blocks_run ch pb st.units nxyz a por sat rv j n N1 N2 F blocks
    blocks_nodup h1 h2 hF hm ([], Store.empty)
  simp only [List.nil_append] at i1 i4
  unfold cellInitialize
  rw [idx_nat hp, Out.ok_bind, idx_nat hr, Out.ok_bind, idx_nat hs, Out.ok_bind, i1, Out.ok_bind]
  by_cases he : blocks.flatMap (fun b => missing pb b (N1 b) (N2 b)) = []
  · simp only [he, if_true]
    refine ⟨_, rfl, by simp, ?_, ?_, ?_⟩
    · intro k m h; simp [overlay, i2 k m h, Store.empty]
    · intro k h; simp [overlay, i3 k h, Store.empty]
    · intro _ b hb hn
      obtain ⟨m, e, x1, x2, x3⟩ := i4 he b hb hn
      exact ⟨m, e, x1, x2, by simp [overlay, x3]⟩
  · rw [if_neg he]
    exact ⟨_, rfl, fun _ => rfl, fun _ _ _ => rfl, fun _ _ => rfl, fun h => absurd h he⟩

/-! ## The loop over cells -/

/-- What a cell needs to be initialised without undefined behaviour. -/
structure CellData (ch : Chem α) (pb : Bin α) (st : Settings) (s : MapState) (a : Args) (c : Nat)
    where
  j : Nat
  por : ℚ
  sat : ℚ
  rv : ℚ
  N1 : Block → Int
  N2 : Block → Int
  F : Block → ℚ
  hj : primary s c = some j
  hp : st.por[j]? = some por
  hs : st.sat[j]? = some sat
  hr : st.rv[j]? = some rv
  h1 : ∀ b ∈ blocks, at' s.nxyz a.ic1 j b = some (N1 b)
  h2 : ∀ b ∈ blocks, at' s.nxyz a.ic2 j b = some (N2 b)
  hF : ∀ b ∈ blocks, at' s.nxyz a.fr j b = some (F b)
  hm : 0 ≤ por → 0 ≤ rv → ∀ b ∈ blocks, 0 ≤ N1 b → missing pb b (N1 b) (N2 b) = [] →
      ∃ x, Made ch pb st.units por sat rv b.kind (N1 b) (N2 b) (F b) x

namespace CellData

variable {ch : Chem α} {pb : Bin α} {st : Settings} {s : MapState} {a : Args} {c : Nat}

/-- Undefined numbers of a cell. -/
def errs (d : CellData ch pb st s a c) : List (Kind × Int) :=
  if d.por < 0 ∨ d.rv < 0 then []
  else blocks.flatMap (fun b => missing pb b (d.N1 b) (d.N2 b))

/-- The cell is not initialised. -/
def bad (d : CellData ch pb st s a c) : Prop :=
  d.por < 0 ∨ d.rv < 0 ∨ blocks.flatMap (fun b => missing pb b (d.N1 b) (d.N2 b)) ≠ []

instance (d : CellData ch pb st s a c) : Decidable d.bad := by unfold bad; infer_instance

/-- Contents of the cell afterwards. -/
structure After (d : CellData ch pb st s a c) (old new : Kind → Option α) : Prop where
  keep : d.bad → new = old
  other : ∀ k, (∀ b ∈ blocks, b.kind = k → d.N1 b < 0) → new k = old k
  made : ¬ d.bad → ∀ b ∈ blocks, 0 ≤ d.N1 b →
    Made ch pb st.units d.por d.sat d.rv b.kind (d.N1 b) (d.N2 b) (d.F b) (new b.kind)

end CellData

theorem loopStep_spec (ch : Chem α) (pb : Bin α) (st : Settings) (s : MapState) (a : Args)
    (c : Nat) (d : CellData ch pb st s a c) (l : LoopState α) :
    ∃ w0', loopStep ch pb st s a l c =
        .ok ⟨l.failed || decide d.bad, l.errs ++ d.errs, w0'⟩ ∧
      (∀ k (m : Int), m ≠ c → w0' k m = l.w0 k m) ∧
      d.After (fun k => l.w0 k c) (fun k => w0' k c) := by
  obtain ⟨cells, hc, hh⟩ := Option.bind_eq_some_iff.mp d.hj
  have h0 : idx cells 0 = .ok d.j := by
    have : cells[0]? = some d.j := by rw [← List.head?_eq_getElem?]; exact hh
    exact idx_nat this
  unfold loopStep
  rw [idx_nat hc, Out.ok_bind, h0, Out.ok_bind, idx_nat d.hp, Out.ok_bind, idx_nat d.hr, Out.ok_bind]
  by_cases hp : d.por < 0
  · have hb : d.bad := .inl hp
    rw [if_pos hp]
    refine ⟨l.w0, ?_, fun _ _ _ => rfl, ⟨fun _ => rfl, fun _ _ => rfl, fun h => absurd hb h⟩⟩
    simp [hb, CellData.errs, hp]
  · by_cases hr : d.rv < 0
    · have hb : d.bad := .inr (.inl hr)
      rw [if_neg hp, if_pos hr]
      refine ⟨l.w0, ?_, fun _ _ _ => rfl, ⟨fun _ => rfl, fun _ _ => rfl, fun h => absurd hb h⟩⟩
      simp [hb, CellData.errs, hr]
    · rw [if_neg hp, if_neg hr]
      obtain ⟨w0', k1, k2, k3, k4, k5⟩ := cellInitialize_spec ch pb st s.nxyz a d.por d.sat d.rv d.j
        (c : Int) d.N1 d.N2 d.F l.w0 d.hp d.hs d.hr d.h1 d.h2 d.hF
        (d.hm (by linarith) (by linarith))
      rw [k1, Out.ok_bind]
      refine ⟨w0', ?_, k3, ⟨?_, k4, ?_⟩⟩
      · have : d.errs = blocks.flatMap (fun b => missing pb b (d.N1 b) (d.N2 b)) := by
          unfold CellData.errs
          rw [if_neg]
          rintro (h | h)
          · exact hp h
          · exact hr h
        rw [this]
        congr 2
        congr 1
        by_cases he : blocks.flatMap (fun b => missing pb b (d.N1 b) (d.N2 b)) = []
        · have hb : ¬ d.bad := by
            rintro (h | h | h)
            · exact hp h
            · exact hr h
            · exact h he
          simp [hb, he]
        · have hb : d.bad := .inr (.inr he)
          simp [hb, he]
      · rintro (h | h | h)
        · exact absurd h hp
        · exact absurd h hr
        · rw [k2 h]
      · intro hb
        refine k5 ?_
        by_contra h
        exact hb (.inr (.inr h))

theorem loop_spec (ch : Chem α) (pb : Bin α) (st : Settings) (s : MapState) (a : Args)
    (d : ∀ c : Nat, c < s.count → CellData ch pb st s a c) (L : List Nat)
    (hL : ∀ c ∈ L, c < s.count) (hnd : L.Nodup) : ∀ l : LoopState α,
    ∃ l', L.foldlM (loopStep ch pb st s a) l = .ok l' ∧
      (l'.failed = true ↔ l.failed = true ∨ ∃ c, ∃ h : c < s.count, c ∈ L ∧ (d c h).bad) ∧
      (∀ p, p ∈ l'.errs ↔ p ∈ l.errs ∨ ∃ c, ∃ h : c < s.count, c ∈ L ∧ p ∈ (d c h).errs) ∧
      (∀ k (m : Int), (∀ c ∈ L, m ≠ c) → l'.w0 k m = l.w0 k m) ∧
      (∀ c (h : c < s.count), c ∈ L →
        (d c h).After (fun k => l.w0 k c) (fun k => l'.w0 k c)) := by
  induction L with
  | nil => intro l; exact ⟨l, rfl, by simp, by simp, by simp, by simp⟩
  | cons c L ih =>
    intro l
    obtain ⟨hc, hnd'⟩ := List.nodup_cons.mp hnd
    have hcs := hL c List.mem_cons_self
    obtain ⟨w1, k1, k2, k3⟩ := loopStep_spec ch pb st s a c (d c hcs) l
    obtain ⟨l', i1, i2, i3, i4, i5⟩ := ih (fun c h => hL c (List.mem_cons_of_mem _ h)) hnd'
      ⟨l.failed || decide (d c hcs).bad, l.errs ++ (d c hcs).errs, w1⟩
    refine ⟨l', ?_, ?_, ?_, ?_, ?_⟩
    · rw [List.foldlM_cons, k1, Out.ok_bind, i1]
    · rw [i2]
      simp only [Bool.or_eq_true, decide_eq_true_eq]
      constructor
      · rintro ((h | h) | ⟨c', h', hm, hb⟩)
        · exact .inl h
        · exact .inr ⟨c, hcs, List.mem_cons_self, h⟩
        · exact .inr ⟨c', h', List.mem_cons_of_mem _ hm, hb⟩
      · rintro (h | ⟨c', h', hm, hb⟩)
        · exact .inl (.inl h)
        · rcases List.mem_cons.mp hm with rfl | hm
          · exact .inl (.inr hb)
          · exact .inr ⟨c', h', hm, hb⟩
    · intro p
      rw [i3]
      simp only [List.mem_append]
      constructor
      · rintro ((h | h) | ⟨c', h', hm, hb⟩)
        · exact .inl h
        · exact .inr ⟨c, hcs, List.mem_cons_self, h⟩
        · exact .inr ⟨c', h', List.mem_cons_of_mem _ hm, hb⟩
      · rintro (h | ⟨c', h', hm, hb⟩)
        · exact .inl (.inl h)
        · rcases List.mem_cons.mp hm with rfl | hm
          · exact .inl (.inr hb)
          · exact .inr ⟨c', h', hm, hb⟩
    · intro k m h
      rw [i4 k m (fun c hc => h c (List.mem_cons_of_mem _ hc))]
      exact k2 k m (h c List.mem_cons_self)
    · intro c' h' hm
      rcases List.mem_cons.mp hm with rfl | hm'
      · have : ∀ k, l'.w0 k c' = w1 k c' := fun k => i4 k c' (by
          intro c hc' e
          have : c' = c := by omega
          subst this; exact hc hc')
        simp only [this]
        exact k3
      · have h := i5 c' h' hm'
        have e : ∀ k, w1 k c' = l.w0 k c' := fun k => k2 k c' (by
          intro e
          have : c' = c := by omega
          subst this; exact hc hm')
        simp only [e] at h
        exact h

/-! ## Distribution over the workers -/

theorem deleteCells_apply (b : Bin α) (cells : List Int) (hne : cells ≠ []) (k : Kind) (m : Int) :
    deleteCells b cells k m = if m ∈ cells then none else b k m := by
  have gen : ∀ (cells : List Int) (b : Bin α),
      cells.foldl deleteCell b k m = if m ∈ cells then none else b k m := by
    intro cells
    induction cells with
    | nil => intro b; simp
    | cons c cs ih =>
      intro b
      rw [List.foldl_cons, ih, deleteCell_apply]
      by_cases h1 : m = c <;> by_cases h2 : m ∈ cs <;> simp [h1, h2]
  unfold deleteCells
  rw [if_neg hne, gen]

theorem copyCells_apply (w0 : Bin α) (cells : List Int) (k : Kind) (m : Int) : ∀ b : Bin α,
    cells.foldl (fun b c => bin2phreeqc b (phreeqc2bin w0 Store.empty c) c) b k m =
      if m ∈ cells ∧ k ∈ toBinKinds ∧ (w0 k m).isSome then w0 k m else b k m := by
  induction cells with
  | nil => intro b; simp
  | cons c cs ih =>
    intro b
    rw [List.foldl_cons, ih, bin2phreeqc_apply, phreeqc2bin_apply]
    by_cases h1 : m = c
    · subst h1
      by_cases h2 : k ∈ toBinKinds <;> by_cases h3 : (w0 k m).isSome <;> by_cases h4 : m ∈ cs <;>
        simp_all [Store.empty]
    · simp [h1]

theorem rangeCells_ne {r : Int × Int} (h : r.1 ≤ r.2) : rangeCells r ≠ [] := by
  intro e
  have : r.1 ∈ rangeCells r := (mem_rangeCells r r.1).mpr ⟨le_refl _, h⟩
  rw [e] at this
  cases this

theorem distribute_loop (L : List ((Int × Int) × Nat)) (h1 : ∀ p ∈ L, p.2 ≠ 0 ∧ p.1.1 ≤ p.1.2)
    (hnd : L.Pairwise (fun p q => p.2 ≠ q.2 ∧ ∀ c ∈ rangeCells p.1, c ∉ rangeCells q.1)) :
    ∀ w : Nat → Bin α,
    (∀ k c, L.foldl distributeTo w 0 k c =
      if ∃ p ∈ L, c ∈ rangeCells p.1 then none else w 0 k c) ∧
    (∀ p ∈ L, ∀ k c, L.foldl distributeTo w p.2 k c =
      if c ∈ rangeCells p.1 ∧ k ∈ toBinKinds ∧ (w 0 k c).isSome then w 0 k c else w p.2 k c) ∧
    (∀ n, n ≠ 0 → (∀ p ∈ L, p.2 ≠ n) → L.foldl distributeTo w n = w n) := by
  induction L with
  | nil => intro w; simp
  | cons q L ih =>
    intro w
    obtain ⟨hq, hnd'⟩ := List.pairwise_cons.mp hnd
    obtain ⟨q0, qr⟩ := h1 q List.mem_cons_self
    obtain ⟨i1, i2, i3⟩ := ih (fun p hp => h1 p (List.mem_cons_of_mem _ hp)) hnd' (distributeTo w q)
    have d0 : ∀ k c, distributeTo w q 0 k c = if c ∈ rangeCells q.1 then none else w 0 k c := by
      intro k c
      unfold distributeTo
      simp only [setAt_same]
      exact deleteCells_apply _ _ (rangeCells_ne qr) k c
    have dq : ∀ k c, distributeTo w q q.2 k c =
        if c ∈ rangeCells q.1 ∧ k ∈ toBinKinds ∧ (w 0 k c).isSome then w 0 k c else w q.2 k c := by
      intro k c
      unfold distributeTo
      rw [setAt_other _ _ _ _ q0, setAt_same]
      exact copyCells_apply _ _ k c _
    have dn : ∀ n, n ≠ 0 → n ≠ q.2 → distributeTo w q n = w n := by
      intro n h0 h
      unfold distributeTo
      rw [setAt_other _ _ _ _ h0, setAt_other _ _ _ _ h]
    rw [List.foldl_cons]
    refine ⟨?_, ?_, ?_⟩
    · intro k c
      rw [i1, d0]
      by_cases hc : c ∈ rangeCells q.1
      · simp [hc]
      · by_cases hL : ∃ p ∈ L, c ∈ rangeCells p.1
        · rw [if_pos hL, if_pos]
          obtain ⟨p, hp, h⟩ := hL
          exact ⟨p, List.mem_cons_of_mem _ hp, h⟩
        · rw [if_neg hL, if_neg hc, if_neg]
          rintro ⟨p, hp, h⟩
          rcases List.mem_cons.mp hp with rfl | hp
          · exact hc h
          · exact hL ⟨p, hp, h⟩
    · intro p hp k c
      rcases List.mem_cons.mp hp with rfl | hp
      · rw [i3 p.2 q0 (fun r hr e => (hq r hr).1 e.symm), dq]
      · have h1' := h1 p (List.mem_cons_of_mem _ hp)
        rw [i2 p hp, dn p.2 h1'.1 (hq p hp).1.symm, d0]
        by_cases hc : c ∈ rangeCells p.1
        · rw [if_neg (fun h => (hq p hp).2 c h hc)]
        · simp [hc]
    · intro n h0 h
      rw [i3 n h0 (fun p hp => h p (List.mem_cons_of_mem _ hp)),
        dn n h0 (h q List.mem_cons_self).symm]

end Verif.InitCond
