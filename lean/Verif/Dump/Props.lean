import Verif.Dump.Model
import Verif.State.Props
import Verif.Transfer.Lemmas
import Mathlib.Data.List.Nodup
import Mathlib.Algebra.BigOperators.Group.List.Basic
import Mathlib.Tactic.Linarith
import Mathlib.Tactic.Ring
import Mathlib.Tactic.SplitIfs

/-!
# C55, C56, C96: dumps
-/

namespace Verif.Dump

open Verif.Store Verif.State Verif.Transfer Verif.Ranges
open Verif.OMap (SMap Sorted)

variable {α : Type}

/-! ## Specification -/

/-- The contents of a worker for kind `k` and number `c`: what is in the saturated zone, mixed
with what is in the unsaturated zone when solids are partitioned. -/
def content (mix : Kind → α → α → α) (partition : Bool) (w : DWorker α) (k : Kind) (c : Int) :
    Option α :=
  match OMap.find (w.rx k) c, (if partition ∧ k ∈ PartitionUZ.uzKinds then
      OMap.find (w.uz k) c else none) with
  | none, none => none
  | some a, none => some a.val
  | none, some u => some u.val
  | some a, some u => some (mix k u.val a.val)

/-- Key of a record: kind and number. -/
def rkey (x : Record α) : Kind × Int := (x.1, x.2.nUser)

/-! ## Lemmas: records -/

theorem mem_dumpKinds (k : Kind) : k ∈ dumpKinds ↔ k ≠ .pressure := by
  cases k <;> simp [dumpKinds]

theorem mem_readKinds (k : Kind) : k ∈ readKinds ↔ k ≠ .pressure := by
  cases k <;> simp [readKinds]

theorem mem_uzMergeKinds (k : Kind) : k ∈ uzMergeKinds ↔ k ∈ PartitionUZ.uzKinds := by
  cases k <;> simp [uzMergeKinds, PartitionUZ.uzKinds]

/-- Every entity is stored under its own number. -/
def Keyed (m : SMap Int (Ent α)) : Prop := ∀ c e, OMap.find m c = some e → e.nUser = c

theorem keyed_of_good {m : Maps α} (h : GoodMaps m) (k : Kind) : Keyed (m k) := fun _ _ hf =>
  (h k).2 _ (OMap.mem_of_find hf)

theorem addUzKind_find (mix : Kind → α → α → α) (k : Kind) :
    ∀ (uz m : SMap Int (Ent α)), Sorted uz → (∀ p ∈ uz, p.2.nUser = p.1) → ∀ c,
      OMap.find (addUzKind mix k m uz) c =
        match OMap.find m c, OMap.find uz c with
        | none, none => none
        | some a, none => some a
        | none, some u => some u
        | some a, some u => some ⟨c, mix k u.val a.val⟩
  | [], m, _, _, c => by
    cases h : OMap.find m c <;> simp [addUzKind, OMap.find, h]
  | (n, e) :: uz, m, hs, hk, c => by
    have hn : e.nUser = n := hk (n, e) List.mem_cons_self
    have hs' := List.pairwise_cons.mp hs
    have hno : OMap.find uz n = none := by
      rw [OMap.find_eq_none_iff]
      intro hmem
      obtain ⟨p, hp, he⟩ := List.mem_map.mp hmem
      have := hs'.1 p hp
      rw [he] at this
      exact lt_irrefl _ this
    have ih := fun m' => addUzKind_find mix k uz m' hs'.2
      (fun p hp => hk p (List.mem_cons_of_mem _ hp)) c
    have step : addUzKind mix k m ((n, e) :: uz) = addUzKind mix k
        (match OMap.find m n with
          | none => OMap.insert m n e
          | some x => OMap.insert m n ⟨n, mix k e.val x.val⟩) uz := by
      simp only [addUzKind, List.foldl_cons, hn]
      cases OMap.find m n <;> rfl
    rw [step, ih]
    by_cases hc : c = n
    · subst hc
      cases hm : OMap.find m c with
      | none => simp [hno, OMap.find_insert, OMap.find]
      | some x => simp [hno, OMap.find_insert, OMap.find]
    · have e1 : OMap.find (match OMap.find m n with
          | none => OMap.insert m n e
          | some x => OMap.insert m n ⟨n, mix k e.val x.val⟩) c = OMap.find m c := by
        cases OMap.find m n <;> simp [OMap.find_insert, hc]
      have e2 : OMap.find ((n, e) :: uz) c = OMap.find uz c := by
        simp [OMap.find, hc]
      rw [e1, e2]

/-- The bin to be dumped holds the contents of the worker. -/
theorem szUz_find (mix : Kind → α → α → α) (partition : Bool) (w : DWorker α)
    (hr : GoodMaps w.rx) (hu : GoodMaps w.uz) (k : Kind) (c : Int) :
    OMap.find (szUz mix partition w k) c =
      (content mix partition w k c).map (fun v => ⟨c, v⟩) := by
  have hka : ∀ a, OMap.find (w.rx k) c = some a → (⟨c, a.val⟩ : Ent α) = a := fun a ha => by
    rw [← keyed_of_good hr k c a ha]
  have hku : ∀ a, OMap.find (w.uz k) c = some a → (⟨c, a.val⟩ : Ent α) = a := fun a ha => by
    rw [← keyed_of_good hu k c a ha]
  unfold szUz content
  rw [toBin_eq _ hr]
  cases partition with
  | false =>
    cases ha : OMap.find (w.rx k) c with
    | none => simp [ha]
    | some a => simp [ha, hka a ha]
  | true =>
    simp only [if_true, addUz, mem_uzMergeKinds, true_and]
    by_cases hk : k ∈ PartitionUZ.uzKinds
    · simp only [hk, if_true]
      rw [addUzKind_find mix k _ _ (hu k).1 (hu k).2]
      cases ha : OMap.find (w.rx k) c with
      | none =>
        cases hx : OMap.find (w.uz k) c with
        | none => simp
        | some u => simp [hku u hx]
      | some a =>
        cases hx : OMap.find (w.uz k) c with
        | none => simp [hka a ha]
        | some u => simp
    · simp only [hk, if_false]
      cases ha : OMap.find (w.rx k) c with
      | none => simp [ha]
      | some a => simp [ha, hka a ha]

theorem szUz_keyed (mix : Kind → α → α → α) (partition : Bool) (w : DWorker α)
    (hr : GoodMaps w.rx) (hu : GoodMaps w.uz) (k : Kind) : Keyed (szUz mix partition w k) := by
  intro c e h
  rw [szUz_find mix partition w hr hu] at h
  cases hc : content mix partition w k c with
  | none => simp [hc] at h
  | some v => simp [hc] at h; rw [← h]

theorem mem_rangeOfKind (m : SMap Int (Ent α)) (k : Kind) (r : Int × Int) (x : Record α) :
    x ∈ rangeOfKind m k r ↔
      ∃ c, r.1 ≤ c ∧ c ≤ r.2 ∧ 0 ≤ c ∧ x.1 = k ∧ OMap.find m c = some x.2 := by
  simp only [rangeOfKind, List.mem_filterMap]
  constructor
  · rintro ⟨c, hc, h⟩
    rw [mem_rangeCells] at hc
    by_cases h0 : c < 0
    · simp [h0] at h
    · simp only [h0, if_false, Option.map_eq_some_iff] at h
      obtain ⟨e, he, rfl⟩ := h
      exact ⟨c, hc.1, hc.2, by omega, rfl, he⟩
  · rintro ⟨c, h1, h2, h0, hk, he⟩
    refine ⟨c, (mem_rangeCells r c).mpr ⟨h1, h2⟩, ?_⟩
    have h0' : ¬ c < 0 := by omega
    simp only [h0', if_false, he, Option.map_some, ← hk]

theorem mem_dumpRange (b : Maps α) (r : Int × Int) (x : Record α) :
    x ∈ dumpRange b r ↔
      x.1 ≠ .pressure ∧ ∃ c, r.1 ≤ c ∧ c ≤ r.2 ∧ 0 ≤ c ∧ OMap.find (b x.1) c = some x.2 := by
  simp only [dumpRange, List.mem_flatMap, mem_rangeOfKind, mem_dumpKinds]
  constructor
  · rintro ⟨k, hk, c, h1, h2, h0, rfl, h⟩
    exact ⟨hk, c, h1, h2, h0, h⟩
  · rintro ⟨hk, c, h1, h2, h0, h⟩
    exact ⟨x.1, hk, c, h1, h2, h0, rfl, h⟩

theorem nodup_rangeOfKind (m : SMap Int (Ent α)) (hm : Keyed m) (k : Kind) (r : Int × Int) :
    ((rangeOfKind m k r).map rkey).Nodup := by
  have h := nodup_rangeCells r
  unfold rangeOfKind
  revert h
  induction rangeCells r with
  | nil => simp
  | cons c cs ih =>
    intro h
    obtain ⟨h1, h2⟩ := List.nodup_cons.mp h
    by_cases h0 : c < 0
    · simpa [h0] using ih h2
    · cases hf : OMap.find m c with
      | none => simpa [h0, hf] using ih h2
      | some e =>
        simp only [List.filterMap_cons, h0, if_false, hf, Option.map_some, List.map_cons,
          List.nodup_cons]
        refine ⟨?_, ih h2⟩
        intro hmem
        obtain ⟨y, hy, hk⟩ := List.mem_map.mp hmem
        obtain ⟨d, hd, hv⟩ := List.mem_filterMap.mp hy
        by_cases hd0 : d < 0
        · simp [hd0] at hv
        · simp only [hd0, if_false, Option.map_eq_some_iff] at hv
          obtain ⟨e', he', rfl⟩ := hv
          simp only [rkey, Prod.mk.injEq, true_and] at hk
          rw [hm d e' he', hm c e hf] at hk
          exact h1 (hk ▸ hd)

theorem nodup_dumpRange (b : Maps α) (hb : ∀ k, Keyed (b k)) (r : Int × Int) :
    ((dumpRange b r).map rkey).Nodup := by
  rw [dumpRange, List.map_flatMap, List.nodup_flatMap]
  refine ⟨fun k _ => nodup_rangeOfKind _ (hb k) k r, ?_⟩
  have : dumpKinds.Nodup := by decide
  refine this.imp ?_
  intro a c hac
  rw [Function.onFun, List.disjoint_left]
  intro y hy hy'
  obtain ⟨x, hx, rfl⟩ := List.mem_map.mp hy
  obtain ⟨z, hz, he⟩ := List.mem_map.mp hy'
  obtain ⟨_, _, _, _, e1, _⟩ := (mem_rangeOfKind _ _ _ _).mp hx
  obtain ⟨_, _, _, _, e2, _⟩ := (mem_rangeOfKind _ _ _ _).mp hz
  simp only [rkey, Prod.mk.injEq] at he
  rw [e1, e2] at he
  exact hac he.1.symm

/-! ## Lemmas: blocks -/

theorem piece_spec (block : Nat) (hb : 0 < block) (r : Int × Int) (ib : Nat) (c : Int) :
    (∃ q, piece block r ib = some q ∧ q.1 ≤ c ∧ c ≤ q.2) ↔
      (r.1 ≤ c ∧ c ≤ r.2 ∧ (ib : Int) = (c - r.1) / block) := by
  have hb' : (0 : Int) < block := by exact_mod_cast hb
  unfold piece
  constructor
  · rintro ⟨q, hq, h1, h2⟩
    split at hq
    · rename_i h
      simp only [Option.some.injEq] at hq
      subst hq
      simp only at h1 h2
      have hc2 : c ≤ r.2 ∧ c ≤ r.1 + (ib + 1) * block - 1 := by
        split at h2 <;> omega
      have hnn : (0 : Int) ≤ ib * block := by positivity
      refine ⟨by omega, hc2.1, ?_⟩
      symm
      rw [Int.ediv_eq_iff_of_pos hb']
      constructor
      · linarith
      · have := hc2.2
        linarith
    · simp at hq
  · rintro ⟨h1, h2, h3⟩
    have e1 := Int.ediv_mul_le (c - r.1) (ne_of_gt hb')
    have e2 := Int.lt_ediv_add_one_mul_self (c - r.1) hb'
    rw [← h3] at e1 e2
    have hle : r.1 + ib * block ≤ r.2 := by linarith
    rw [if_pos hle]
    refine ⟨_, rfl, by linarith, ?_⟩
    simp only
    split
    · exact h2
    · linarith

theorem foldl_max_ge (rs : List (Int × Int)) : ∀ m : Int,
    m ≤ rs.foldl (fun (m : Int) r => if r.2 - r.1 + 1 > m then r.2 - r.1 + 1 else m) m ∧
    ∀ r ∈ rs, r.2 - r.1 + 1 ≤
      rs.foldl (fun (m : Int) r => if r.2 - r.1 + 1 > m then r.2 - r.1 + 1 else m) m := by
  induction rs with
  | nil => intro m; simp
  | cons r rs ih =>
    intro m
    obtain ⟨h1, h2⟩ := ih (if r.2 - r.1 + 1 > m then r.2 - r.1 + 1 else m)
    rw [List.foldl_cons]
    refine ⟨?_, ?_⟩
    · refine le_trans ?_ h1
      split <;> omega
    · intro q hq
      rcases List.mem_cons.mp hq with rfl | hq
      · refine le_trans ?_ h1
        split <;> omega
      · exact h2 q hq

/-- All cells fit into the blocks. -/
theorem nBlocks_ge (block : Nat) (hb : 0 < block) (rs : List (Int × Int)) (r : Int × Int)
    (hr : r ∈ rs) : r.2 - r.1 + 1 ≤ nBlocks block rs * block := by
  have hb' : (0 : Int) < block := by exact_mod_cast hb
  obtain ⟨h0, h⟩ := foldl_max_ge rs 0
  have h := h r hr
  unfold nBlocks
  generalize rs.foldl _ (0 : Int) = m at h h0
  simp only
  have e := Int.emod_add_mul_ediv m block
  have hm := Int.emod_nonneg m (ne_of_gt hb')
  have hl := Int.emod_lt_of_pos m hb'
  rw [add_mul]
  split
  · nlinarith
  · have : m % block = 0 := by omega
    nlinarith

theorem nBlocks_nonneg (block : Nat) (rs : List (Int × Int)) : 0 ≤ nBlocks block rs := by
  obtain ⟨h0, _⟩ := foldl_max_ge rs 0
  unfold nBlocks
  generalize rs.foldl _ (0 : Int) = m at h0
  simp only
  have : 0 ≤ m / (block : Int) := Int.ediv_nonneg h0 (by positivity)
  split <;> omega

theorem mem_blockRecords (block : Nat) (hb : 0 < block) (ib : Nat) (p : (Int × Int) × Maps α)
    (x : Record α) :
    x ∈ blockRecords block ib p ↔
      x.1 ≠ .pressure ∧ ∃ c, p.1.1 ≤ c ∧ c ≤ p.1.2 ∧ (ib : Int) = (c - p.1.1) / block ∧ 0 ≤ c ∧
        OMap.find (p.2 x.1) c = some x.2 := by
  unfold blockRecords
  constructor
  · intro h
    cases hq : piece block p.1 ib with
    | none => rw [hq] at h; simp at h
    | some q =>
      rw [hq] at h
      obtain ⟨hp, c, h1, h2, h0, hf⟩ := (mem_dumpRange _ _ _).mp h
      obtain ⟨e1, e2, e3⟩ := (piece_spec block hb p.1 ib c).mp ⟨q, hq, h1, h2⟩
      exact ⟨hp, c, e1, e2, e3, h0, hf⟩
  · rintro ⟨hp, c, e1, e2, e3, h0, hf⟩
    obtain ⟨q, hq, h1, h2⟩ := (piece_spec block hb p.1 ib c).mpr ⟨e1, e2, e3⟩
    rw [hq]
    exact (mem_dumpRange _ _ _).mpr ⟨hp, c, h1, h2, h0, hf⟩

theorem mem_dumpRecords (block : Nat) (hb : 0 < block) (ps : List ((Int × Int) × Maps α))
    (x : Record α) :
    x ∈ dumpRecords block ps ↔
      x.1 ≠ .pressure ∧ ∃ p ∈ ps, ∃ c, p.1.1 ≤ c ∧ c ≤ p.1.2 ∧ 0 ≤ c ∧
        OMap.find (p.2 x.1) c = some x.2 := by
  simp only [dumpRecords, List.mem_flatMap, List.mem_range, mem_blockRecords block hb]
  constructor
  · rintro ⟨ib, _, p, hp, hk, c, h1, h2, _, h0, hf⟩
    exact ⟨hk, p, hp, c, h1, h2, h0, hf⟩
  · rintro ⟨hk, p, hp, c, h1, h2, h0, hf⟩
    have hb' : (0 : Int) < block := by exact_mod_cast hb
    have hnn : 0 ≤ (c - p.1.1) / (block : Int) := Int.ediv_nonneg (by omega) (by omega)
    have hlt : (c - p.1.1) / (block : Int) < nBlocks block (ps.map Prod.fst) := by
      have := nBlocks_ge block hb (ps.map Prod.fst) p.1 (List.mem_map_of_mem hp)
      rw [Int.ediv_lt_iff_lt_mul hb']
      omega
    refine ⟨((c - p.1.1) / (block : Int)).toNat, by omega, p, hp, hk, c, h1, h2, by omega, h0, hf⟩

/-- In the list of ranges the worker of a cell is unique. -/
theorem owner_pair {a b : Int} : ∀ (ps : List ((Int × Int) × Maps α)),
    Contig a b (ps.map Prod.fst) →
    ps.Pairwise (fun p q => ∀ c, p.1.1 ≤ c → c ≤ p.1.2 → ¬ (q.1.1 ≤ c ∧ c ≤ q.1.2))
  | [], _ => by simp
  | p :: ps, h => by
    obtain ⟨h1, h2, h3⟩ := h
    rw [List.pairwise_cons]
    refine ⟨?_, ?_⟩
    · rintro q hq c c1 c2 ⟨c3, c4⟩
      obtain ⟨j, hj, e⟩ := List.mem_iff_getElem.mp hq
      have := h3.owns_bounds (i := j) (c := c) ⟨q.1, by simp [hj, e], c3, c4⟩
      omega
    · have : ∀ a', Contig a' b (ps.map Prod.fst) → ps.Pairwise _ := fun a' h' => owner_pair ps h'
      exact this _ h3

theorem nodup_dumpRecords (block : Nat) (hb : 0 < block) (ps : List ((Int × Int) × Maps α))
    (hk : ∀ p ∈ ps, ∀ k, Keyed (p.2 k)) {a b : Int} (hc : Contig a b (ps.map Prod.fst)) :
    ((dumpRecords block ps).map rkey).Nodup := by
  have hpair := owner_pair ps hc
  -- number of a record and its cell
  have num : ∀ ib, ∀ p ∈ ps, ∀ x ∈ blockRecords block ib p,
      p.1.1 ≤ x.2.nUser ∧ x.2.nUser ≤ p.1.2 ∧ (ib : Int) = (x.2.nUser - p.1.1) / block := by
    intro ib p hp x hx
    obtain ⟨_, c, h1, h2, h3, _, hf⟩ := (mem_blockRecords block hb ib p x).mp hx
    have := hk p hp x.1 c x.2 hf
    rw [this]
    exact ⟨h1, h2, h3⟩
  have uniq : ∀ p ∈ ps, ∀ q ∈ ps, ∀ c, p.1.1 ≤ c → c ≤ p.1.2 → q.1.1 ≤ c → c ≤ q.1.2 →
      p = q := by
    intro p hp q hq c c1 c2 c3 c4
    obtain ⟨i, hi, rfl⟩ := List.mem_iff_getElem.mp hp
    obtain ⟨j, hj, rfl⟩ := List.mem_iff_getElem.mp hq
    rw [List.pairwise_iff_getElem] at hpair
    rcases lt_trichotomy i j with h | h | h
    · exact absurd ⟨c3, c4⟩ (hpair i j hi hj h c c1 c2)
    · subst h; rfl
    · exact absurd ⟨c1, c2⟩ (hpair j i hj hi h c c3 c4)
  rw [dumpRecords, List.map_flatMap, List.nodup_flatMap]
  refine ⟨?_, ?_⟩
  · intro ib _
    rw [List.map_flatMap, List.nodup_flatMap]
    refine ⟨?_, ?_⟩
    · intro p hp
      unfold blockRecords
      cases piece block p.1 ib with
      | none => simp
      | some q => exact nodup_dumpRange _ (hk p hp) q
    · have hall : ps.Pairwise (fun p q => (∀ c, p.1.1 ≤ c → c ≤ p.1.2 →
          ¬ (q.1.1 ≤ c ∧ c ≤ q.1.2)) ∧ p ∈ ps ∧ q ∈ ps) := by
        rw [List.pairwise_iff_getElem] at hpair ⊢
        intro i j hi hj hij
        exact ⟨hpair i j hi hj hij, List.getElem_mem hi, List.getElem_mem hj⟩
      refine hall.imp ?_
      rintro p q ⟨hpq, hp, hq⟩
      rw [Function.onFun, List.disjoint_left]
      intro y hy hy'
      obtain ⟨x, hx, rfl⟩ := List.mem_map.mp hy
      obtain ⟨z, hz, he⟩ := List.mem_map.mp hy'
      obtain ⟨a1, a2, _⟩ := num ib p hp x hx
      obtain ⟨b1, b2, _⟩ := num ib q hq z hz
      have he : z.2.nUser = x.2.nUser := congrArg Prod.snd he
      rw [he] at b1 b2
      exact hpq _ a1 a2 ⟨b1, b2⟩
  · refine (List.nodup_range).imp ?_
    intro i j hij
    rw [Function.onFun, List.disjoint_left]
    intro y hy hy'
    obtain ⟨x, hx, rfl⟩ := List.mem_map.mp hy
    obtain ⟨z, hz, he⟩ := List.mem_map.mp hy'
    obtain ⟨p, hp, hx⟩ := List.mem_flatMap.mp hx
    obtain ⟨q, hq, hz⟩ := List.mem_flatMap.mp hz
    obtain ⟨a1, a2, a3⟩ := num i p hp x hx
    obtain ⟨b1, b2, b3⟩ := num j q hq z hz
    have he : z.2.nUser = x.2.nUser := congrArg Prod.snd he
    rw [he] at b1 b2 b3
    have := uniq p hp q hq _ a1 a2 b1 b2
    subst this
    rw [← b3] at a3
    exact hij (by exact_mod_cast a3)

/-! ## Lemmas: text -/

theorem writeChunks_eq (gz : Nat) (hg : 0 < gz) : ∀ s : List Char, writeChunks gz s = s := by
  intro s
  induction hn : s.length using Nat.strong_induction_on generalizing s with
  | _ n ih =>
    rw [writeChunks]
    split
    · rename_i h
      have hp : 0 < s.length := List.length_pos_iff.mpr h.2
      rw [ih (s.drop gz).length (by simp; omega) _ rfl, List.take_append_drop]
    · rename_i h
      by_contra hne
      exact h ⟨hg, fun e => hne e.symm⟩

theorem cstr_eq (s : List Char) (h : Char.ofNat 0 ∉ s) : cstr s = s := by
  rw [cstr, List.takeWhile_eq_self_iff]
  intro c hc
  simp only [ne_eq, decide_not, Bool.not_eq_eq_eq_not, Bool.not_true, decide_eq_false_iff_not]
  rintro rfl
  exact h hc

theorem dumpText_eq (block gz : Nat) (hg : 0 < gz) (render : Record α → List Char)
    (hr : ∀ x, Char.ofNat 0 ∉ render x) (ps : List ((Int × Int) × Maps α)) :
    dumpText block gz render ps = (dumpRecords block ps).flatMap render := by
  unfold dumpText dumpRecords
  rw [List.flatMap_assoc]
  congr 1
  funext ib
  rw [List.flatMap_assoc]
  congr 1
  funext p
  rw [writeChunks_eq gz hg, cstr_eq]
  intro h
  obtain ⟨x, _, hx⟩ := List.mem_flatMap.mp h
  exact hr x hx

/-! ## Lemmas: the progress message -/

theorem foldl_count (block ib : Nat) (rs : List (Int × Int)) : ∀ c : Int,
    rs.foldl (fun c r => c + pieceSize block ib r) c = c + (rs.map (pieceSize block ib)).sum := by
  induction rs with
  | nil => intro c; simp
  | cons r rs ih =>
    intro c
    rw [List.foldl_cons, ih, List.map_cons, List.sum_cons]
    ring

/-- Cells of a range in the blocks before block `m`. -/
def before (block : Nat) (m : Nat) (r : Int × Int) : Int := min (r.2 - r.1 + 1) (m * block)

theorem before_succ (block : Nat) (m : Nat) (r : Int × Int) (hr : r.1 ≤ r.2) :
    before block (m + 1) r = before block m r + pieceSize block m r := by
  unfold before pieceSize piece
  have e : ((m + 1 : Nat) : Int) * block = m * block + block := by push_cast; ring
  have e' : ((m : Int) + 1) * block = m * block + block := by ring
  have hb0 : (0 : Int) ≤ block := by positivity
  rw [e, e']
  generalize (m : Int) * block = x
  by_cases h : r.1 + x ≤ r.2
  · rw [if_pos h]
    simp only [min_def]
    split_ifs <;> omega
  · rw [if_neg h]
    simp only [min_def]
    split_ifs <;> omega

theorem blockCount_eq (block : Nat) (rs : List (Int × Int)) (hr : ∀ r ∈ rs, r.1 ≤ r.2) :
    ∀ m, blockCount block rs m = (rs.map (before block m)).sum
  | 0 => by
    have : rs.map (before block 0) = rs.map (fun _ => 0) := by
      apply List.map_congr_left
      intro r h
      have := hr r h
      simp only [before, Nat.cast_zero, zero_mul]
      omega
    rw [this]
    simp [blockCount]
  | m + 1 => by
    rw [blockCount, foldl_count, blockCount_eq block rs hr m, ← List.sum_map_add]
    congr 1
    apply List.map_congr_left
    intro r h
    exact (before_succ block m r (hr r h)).symm

theorem contig_le {a b : Int} {rs : List (Int × Int)} (h : Contig a b rs) :
    ∀ r ∈ rs, r.1 ≤ r.2 := by
  induction rs generalizing a with
  | nil => simp
  | cons q rs ih =>
    obtain ⟨_, h2, h3⟩ := h
    intro r hr
    rcases List.mem_cons.mp hr with rfl | hr
    · exact h2
    · exact ih h3 r hr

theorem contig_sum {a b : Int} {rs : List (Int × Int)} (h : Contig a b rs) :
    (rs.map (fun r => r.2 - r.1 + 1)).sum = b - a := by
  induction rs generalizing a with
  | nil => simp only [Contig] at h; simp [h]
  | cons q rs ih =>
    obtain ⟨h1, h2, h3⟩ := h
    rw [List.map_cons, List.sum_cons, ih h3]
    omega

theorem sum_before_le (block m : Nat) (rs : List (Int × Int)) :
    (rs.map (before block m)).sum ≤ (rs.map (fun r => r.2 - r.1 + 1)).sum := by
  induction rs with
  | nil => simp
  | cons r rs ih =>
    simp only [List.map_cons, List.sum_cons]
    have : before block m r ≤ r.2 - r.1 + 1 := min_le_left _ _
    omega

theorem overflow_iff (block : Nat) (hb : 0 < block) (rs : List (Int × Int)) {n : Nat}
    (hc : Contig 0 n rs) : progressOverflows block rs = true ↔ (n : Int) * 100 > intMax := by
  have hle := contig_le hc
  have hsum := contig_sum hc
  unfold progressOverflows
  rw [List.any_eq_true]
  constructor
  · rintro ⟨ib, _, h⟩
    rw [decide_eq_true_eq, blockCount_eq block rs hle] at h
    have := sum_before_le block (ib + 1) rs
    omega
  · intro h
    have hne : rs ≠ [] := by
      rintro rfl
      simp only [Contig] at hc
      rw [← hc] at h
      simp [intMax] at h
    obtain ⟨r, hr⟩ := List.exists_mem_of_ne_nil _ hne
    have hb' : (0 : Int) < block := by exact_mod_cast hb
    have hN : 0 < nBlocks block rs := by
      have h1 := nBlocks_ge block hb rs r hr
      have h2 := hle r hr
      by_contra hneg
      have : nBlocks block rs * block ≤ 0 := mul_nonpos_of_nonpos_of_nonneg (by omega) (by omega)
      omega
    refine ⟨(nBlocks block rs).toNat - 1, by rw [List.mem_range]; omega, ?_⟩
    rw [decide_eq_true_eq, blockCount_eq block rs hle]
    have e : rs.map (before block ((nBlocks block rs).toNat - 1 + 1)) =
        rs.map (fun r => r.2 - r.1 + 1) := by
      apply List.map_congr_left
      intro q hq
      have := nBlocks_ge block hb rs q hq
      have e2 : (((nBlocks block rs).toNat - 1 + 1 : Nat) : Int) = nBlocks block rs := by omega
      simp only [before, e2]
      exact min_eq_left this
    rw [e, hsum]
    simpa using h

/-! ## The theorems -/

/-- Workers as they are between calls: consecutive ranges covering the cells, entities stored
under their own numbers. -/
structure Ready (n : Nat) (ws : List (DWorker α)) : Prop where
  ranges : Contig 0 n (ws.map DWorker.range)
  rx     : ∀ w ∈ ws, GoodMaps w.rx
  uz     : ∀ w ∈ ws, GoodMaps w.uz

/-- **C55 (partial).** The file gets a sequence of texts, one for each record: for every kind
other than pressures and every cell with such a reactant there is exactly one record, with the
contents of the worker that owns the cell, and there are no other records. This holds for every
number of workers and cells. The condition `Ready` excludes gas phases made by `SetGasCompMoles`,
which do not have the number of their cell (see `dump_gas_lost`); pressures are not written
(`dump_pressure_lost`); and the number of cells is limited (`dump_defined_iff`). -/
theorem dump_complete_partial (mix : Kind → α → α → α) (render : Record α → List Char)
    (hr : ∀ x, Char.ofNat 0 ∉ render x) (partition append : Bool) (old : List Char)
    (n : Nat) (ws : List (DWorker α)) (h : Ready n ws) (hn : (n : Int) * 100 ≤ intMax) :
    ∃ xs : List (Record α),
      dumpModule mix render partition true append true old ws =
        .ok (.ok, (if append then old else []) ++ xs.flatMap render) ∧
      (xs.map rkey).Nodup ∧
      ∀ k c v, (k, ⟨c, v⟩) ∈ xs ↔
        k ≠ .pressure ∧ ∃ w ∈ ws, w.range.1 ≤ c ∧ c ≤ w.range.2 ∧
          content mix partition w k c = some v := by
  have hmap : (ws.map (fun w => (w.range, szUz mix partition w))).map Prod.fst =
      ws.map DWorker.range := by simp [Function.comp_def]
  refine ⟨dumpRecords 10000 (ws.map (fun w => (w.range, szUz mix partition w))), ?_, ?_, ?_⟩
  · have : progressOverflows 10000 (ws.map DWorker.range) = false := by
      rw [Bool.eq_false_iff]
      intro e
      have := (overflow_iff 10000 (by omega) _ h.ranges).mp e
      omega
    simp only [dumpModule, this, Bool.not_true, Bool.false_eq_true, if_false]
    rw [dumpText_eq 10000 4094 (by omega) render hr]
  · refine nodup_dumpRecords 10000 (by omega) _ ?_ (by rw [hmap]; exact h.ranges)
    intro p hp k
    obtain ⟨w, hw, rfl⟩ := List.mem_map.mp hp
    exact szUz_keyed mix partition w (h.rx w hw) (h.uz w hw) k
  · intro k c v
    rw [mem_dumpRecords 10000 (by omega)]
    constructor
    · rintro ⟨hk, p, hp, d, h1, h2, _, hf⟩
      obtain ⟨w, hw, rfl⟩ := List.mem_map.mp hp
      simp only at h1 h2 hf
      rw [szUz_find mix partition w (h.rx w hw) (h.uz w hw)] at hf
      obtain ⟨v', hv', e⟩ := Option.map_eq_some_iff.mp hf
      simp only [Ent.mk.injEq] at e
      obtain ⟨rfl, rfl⟩ := e
      exact ⟨hk, w, hw, h1, h2, hv'⟩
    · rintro ⟨hk, w, hw, h1, h2, hv⟩
      refine ⟨hk, _, List.mem_map_of_mem hw, c, h1, h2, ?_, ?_⟩
      · obtain ⟨j, hj, e⟩ := List.mem_iff_getElem.mp hw
        have := h.ranges.owns_bounds (i := j) (c := c) ⟨w.range, by simp [hj, e], h1, h2⟩
        exact this.1
      · simp only
        rw [szUz_find mix partition w (h.rx w hw) (h.uz w hw), hv]
        rfl

/-- **C96 (partial).** A dump is defined exactly if there are at most 21474836 cells: beyond that
the progress message overflows. -/
theorem dump_defined_iff (mix : Kind → α → α → α) (render : Record α → List Char)
    (partition append : Bool) (old : List Char) (n : Nat) (ws : List (DWorker α))
    (h : Contig 0 n (ws.map DWorker.range)) :
    dumpModule mix render partition true append true old ws = .ub ↔ 21474836 < n := by
  have key : progressOverflows 10000 (ws.map DWorker.range) = true ↔ 21474836 < n := by
    rw [overflow_iff 10000 (by omega) _ h]
    unfold intMax
    omega
  simp only [dumpModule, Bool.not_true, Bool.false_eq_true, if_false]
  by_cases hp : progressOverflows 10000 (ws.map DWorker.range) = true
  · simp [hp, key.mp hp]
  · rw [if_neg hp]
    simp only [reduceCtorEq, false_iff]
    exact fun e => hp (key.mpr e)

/-- What is read from a list of records with different keys. -/
theorem readRaw_find (xs : List (Record α)) (hn : (xs.map rkey).Nodup)
    (hp : ∀ x ∈ xs, x.1 ≠ .pressure) (k : Kind) (c : Int) (e : Ent α) :
    OMap.find (readRaw xs k) c = some e ↔ (k, e) ∈ xs ∧ e.nUser = c := by
  suffices h : ∀ (b : Maps α), (∀ x ∈ xs, OMap.find (b x.1) x.2.nUser = none) →
      (OMap.find (xs.foldl readRecord b k) c = some e ↔
        ((k, e) ∈ xs ∧ e.nUser = c) ∨ OMap.find (b k) c = some e) by
    have := h (fun _ => []) (fun _ _ => rfl)
    simpa [readRaw, OMap.find] using this
  induction xs with
  | nil => intro b _; simp
  | cons x xs ih =>
    intro b hb
    rw [List.map_cons, List.nodup_cons] at hn
    have hk : x.1 ∈ readKinds := (mem_readKinds _).mpr (hp x List.mem_cons_self)
    have hx := hb x List.mem_cons_self
    have fnd : ∀ k' c', OMap.find (readRecord b x k') c' =
        if k' = x.1 ∧ c' = x.2.nUser then some x.2 else OMap.find (b k') c' := by
      intro k' c'
      simp only [readRecord, hk, if_true]
      by_cases h1 : k' = x.1
      · subst h1
        simp [OMap.find_insert]
      · simp [h1]
    rw [List.foldl_cons, ih hn.2 (fun y hy => hp y (List.mem_cons_of_mem _ hy))]
    · rw [fnd]
      constructor
      · rintro (⟨h1, h2⟩ | h1)
        · exact .inl ⟨List.mem_cons_of_mem _ h1, h2⟩
        · split at h1
          · rename_i hh
            simp only [Option.some.injEq] at h1
            subst h1
            left
            rw [hh.1, hh.2]
            exact ⟨List.mem_cons_self, rfl⟩
          · exact .inr h1
      · rintro (⟨h1, h2⟩ | h1)
        · rcases List.mem_cons.mp h1 with h3 | h3
          · right
            subst h3
            simp [← h2]
          · exact .inl ⟨h3, h2⟩
        · right
          split
          · rename_i hh
            rw [hh.1, hh.2, hx] at h1
            simp at h1
          · exact h1
    · intro y hy
      rw [fnd]
      have : ¬ (y.1 = x.1 ∧ y.2.nUser = x.2.nUser) := by
        rintro ⟨h1, h2⟩
        exact hn.1 (List.mem_map.mpr ⟨y, hy, by simp [rkey, h1, h2]⟩)
      rw [if_neg this]
      exact hb y (List.mem_cons_of_mem _ hy)

theorem mem_dumpRaw (b : Maps α) (x : Record α) :
    x ∈ dumpRaw b ↔ x.1 ≠ .pressure ∧ ∃ c, 0 ≤ c ∧ 0 ≤ x.2.nUser ∧ (c, x.2) ∈ b x.1 := by
  simp only [dumpRaw, dumpKind, List.mem_flatMap, List.mem_map, List.mem_filter,
    decide_eq_true_eq, mem_dumpKinds]
  constructor
  · rintro ⟨k, hk, p, ⟨hp, h1, h2⟩, rfl⟩
    exact ⟨hk, p.1, h1, h2, hp⟩
  · rintro ⟨hk, c, h1, h2, h⟩
    exact ⟨x.1, hk, (c, x.2), ⟨h, h1, h2⟩, rfl⟩

theorem nodup_dumpRaw (b : Maps α) (hb : GoodMaps b) : ((dumpRaw b).map rkey).Nodup := by
  rw [dumpRaw, List.map_flatMap, List.nodup_flatMap]
  refine ⟨?_, ?_⟩
  · intro k _
    rw [dumpKind, List.map_map]
    have hs := (hb k).1
    have hs : ((b k).filter (fun p => 0 ≤ p.1 ∧ 0 ≤ p.2.nUser)).Pairwise
        (fun a c => a.1 < c.1 ∧ a ∈ b k ∧ c ∈ b k) := by
      have : (b k).Pairwise (fun a c => a.1 < c.1 ∧ a ∈ b k ∧ c ∈ b k) := by
        unfold OMap.Sorted at hs
        rw [List.pairwise_iff_getElem] at hs ⊢
        intro i j hi hj hij
        exact ⟨hs i j hi hj hij, List.getElem_mem hi, List.getElem_mem hj⟩
      exact this.filter _
    refine List.Pairwise.map _ ?_ hs
    rintro p q ⟨hlt, hp, hq⟩ he
    have he : p.2.nUser = q.2.nUser := congrArg Prod.snd he
    rw [(hb k).2 p hp, (hb k).2 q hq] at he
    rw [he] at hlt
    exact lt_irrefl _ hlt
  · have : dumpKinds.Nodup := by decide
    refine this.imp ?_
    intro a c hac
    rw [Function.onFun, List.disjoint_left]
    intro y hy hy'
    obtain ⟨x, hx, rfl⟩ := List.mem_map.mp hy
    obtain ⟨z, hz, he⟩ := List.mem_map.mp hy'
    obtain ⟨p, _, rfl⟩ := List.mem_map.mp hx
    obtain ⟨q, _, rfl⟩ := List.mem_map.mp hz
    exact hac (congrArg Prod.fst he).symm

/-- **C56 (partial).** Dumping a storage bin and reading it back gives the same reactants, for
all kinds other than pressures and all numbers that are not negative. Missing: pressures
(`dump_pressure_lost`) and entities stored under another number. -/
theorem dump_read_partial (b : Maps α) (hb : GoodMaps b) (k : Kind) (hk : k ≠ .pressure) (c : Int)
    (hc : 0 ≤ c) : OMap.find (readRaw (dumpRaw b) k) c = OMap.find (b k) c := by
  have key : ∀ e, OMap.find (readRaw (dumpRaw b) k) c = some e ↔ OMap.find (b k) c = some e := by
    intro e
    rw [readRaw_find _ (nodup_dumpRaw b hb) (fun x hx => ((mem_dumpRaw b x).mp hx).1), mem_dumpRaw]
    constructor
    · rintro ⟨⟨_, d, h1, h2, h3⟩, rfl⟩
      have := (hb k).2 _ h3
      simp only at this
      rw [this]
      exact OMap.find_of_mem (hb k).1 h3
    · intro h
      have hm := OMap.mem_of_find h
      have hu : e.nUser = c := (hb k).2 _ hm
      exact ⟨⟨hk, c, hc, by simp only; omega, hm⟩, hu⟩
  cases h : OMap.find (b k) c with
  | some e => exact (key e).mpr h
  | none =>
    cases h' : OMap.find (readRaw (dumpRaw b) k) c with
    | none => rfl
    | some e => rw [(key e).mp h'] at h; cases h

/-- Reading back a dump of the module: the owner's contents for every cell. -/
theorem dump_module_read_partial (mix : Kind → α → α → α) (partition : Bool) (n : Nat)
    (ws : List (DWorker α)) (h : Ready n ws) (i : Nat) (w : DWorker α) (hw : ws[i]? = some w)
    (k : Kind) (hk : k ≠ .pressure) (c : Int) (h1 : w.range.1 ≤ c) (h2 : c ≤ w.range.2) :
    OMap.find (readRaw (dumpRecords 10000
        (ws.map (fun w => (w.range, szUz mix partition w)))) k) c =
      (content mix partition w k c).map (fun v => ⟨c, v⟩) := by
  have hmap : (ws.map (fun w => (w.range, szUz mix partition w))).map Prod.fst =
      ws.map DWorker.range := by simp [Function.comp_def]
  have hmem : w ∈ ws := List.mem_of_getElem? hw
  have hown : Owns (ws.map DWorker.range) i c := ⟨w.range, by simp [hw], h1, h2⟩
  have hc := h.ranges.owns_bounds hown
  have key : ∀ e, OMap.find (readRaw (dumpRecords 10000
        (ws.map (fun w => (w.range, szUz mix partition w)))) k) c = some e ↔
      (content mix partition w k c).map (fun v => ⟨c, v⟩) = some e := by
    intro e
    rw [readRaw_find]
    · rw [mem_dumpRecords 10000 (by omega)]
      constructor
      · rintro ⟨⟨_, p, hp, d, d1, d2, _, hf⟩, rfl⟩
        obtain ⟨q, hq, rfl⟩ := List.mem_map.mp hp
        simp only at d1 d2 hf
        have hd : e.nUser = d := szUz_keyed mix partition q (h.rx q hq) (h.uz q hq) k d e hf
        subst hd
        obtain ⟨j, hj, ej⟩ := List.mem_iff_getElem.mp hq
        have hj' : Owns (ws.map DWorker.range) j e.nUser := ⟨q.range, by simp [hj, ej], d1, d2⟩
        have := h.ranges.owner_unique hown hj'
        subst this
        have : q = w := by
          have : ws[i]? = some q := by simp [hj, ej]
          rw [hw] at this
          exact (Option.some.inj this).symm
        subst this
        rw [← szUz_find mix partition q (h.rx q hq) (h.uz q hq)]
        exact hf
      · intro he
        have he' := he
        rw [← szUz_find mix partition w (h.rx w hmem) (h.uz w hmem)] at he
        refine ⟨⟨hk, _, List.mem_map_of_mem hmem, c, h1, h2, hc.1, he⟩, ?_⟩
        exact szUz_keyed mix partition w (h.rx w hmem) (h.uz w hmem) k c e he
    · refine nodup_dumpRecords 10000 (by omega) _ ?_ (by rw [hmap]; exact h.ranges)
      intro p hp k
      obtain ⟨w, hw, rfl⟩ := List.mem_map.mp hp
      exact szUz_keyed mix partition w (h.rx w hw) (h.uz w hw) k
    · intro x hx
      exact ((mem_dumpRecords 10000 (by omega) _ x).mp hx).1
  cases hcv : (content mix partition w k c).map (fun v => (⟨c, v⟩ : Ent α)) with
  | some e => exact (key e).mpr hcv
  | none =>
    cases h' : OMap.find (readRaw (dumpRecords 10000
        (ws.map (fun w => (w.range, szUz mix partition w)))) k) c with
    | none => rfl
    | some e => rw [(key e).mp h'] at hcv; cases hcv

end Verif.Dump
