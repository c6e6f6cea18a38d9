import Verif.Transfer.Lemmas
import Verif.Transfer.Spec

/-! # C07, C08: moving cells is lossless; results do not depend on the workers

Also C64 and C65, two ways in which moving a cell does lose data. -/

namespace Verif.Transfer

open Verif.Store Verif.Ranges

variable {α : Type}

theorem mem_toBinKinds (k : Kind) : k ∈ toBinKinds ↔ CellKind k := by
  cases k <;> simp [toBinKinds, CellKind]

/-- Cells before `k` are at their new owners, the others still at the old ones. -/
def Mid (P : Kind → Prop) (old new : List (Int × Int)) (content : Int → Kind → Option α) (k : Int)
    (b : Nat → Bin α) : Prop :=
  ∀ i c kd, P kd →
    (c < k → (Owns new i c → b i kd c = content c kd) ∧ (¬ Owns new i c → b i kd c = none)) ∧
    (k ≤ c → (Owns old i c → b i kd c = content c kd) ∧ (¬ Owns old i c → b i kd c = none))

theorem Mid.step {P : Kind → Prop} {old new : List (Int × Int)} {content : Int → Kind → Option α}
    {k : Int} {b b' : Nat → Bin α} {i' j' : Nat} (h : Mid P old new content k b)
    (hi : ∀ i, Owns old i k ↔ i = i') (hj : ∀ i, Owns new i k ↔ i = j')
    (hb : ∀ i c kd, P kd → b' i kd c = if i' = j' then b i kd c else
      if c = k ∧ i = i' then none
      else if c = k ∧ i = j' ∧ (b i' kd k).isSome then b i' kd k else b i kd c) :
    Mid P old new content (k + 1) b' := by
  intro i c kd hP
  have hb' := hb i c kd hP
  have hh := h i c kd hP
  by_cases hc : c = k
  · subst hc
    have own := (h i' c kd hP).2 (Int.le_refl _)
    have e1 : b i' kd c = content c kd := own.1 ((hi i').mpr rfl)
    refine ⟨fun _ => ?_, fun hle => by omega⟩
    by_cases e : i' = j'
    · rw [if_pos e] at hb'
      rw [hb', hj, ← e, ← hi]
      exact hh.2 (Int.le_refl _)
    · rw [if_neg e] at hb'
      rw [hj]
      constructor
      · intro hij
        subst hij
        rw [if_neg (by rintro ⟨_, h2⟩; exact e h2.symm)] at hb'
        rw [hb', e1]
        cases hcon : content c kd with
        | none =>
          simp only [Option.isSome_none, Bool.false_eq_true, and_false, if_false]
          exact (hh.2 (Int.le_refl _)).2 (by rw [hi]; exact fun h2 => e h2.symm)
        | some v => simp
      · intro hne
        rw [hb']
        by_cases h2 : i = i'
        · simp [h2]
        · rw [if_neg (by rintro ⟨_, h3⟩; exact h2 h3), if_neg (by rintro ⟨_, h3, _⟩; exact hne h3)]
          exact (hh.2 (Int.le_refl _)).2 (by rw [hi]; exact h2)
  · have e : b' i kd c = b i kd c := by
      rw [hb']
      split
      · rfl
      · rw [if_neg (fun h => hc h.1), if_neg (fun h => hc h.1)]
    rw [e]
    exact ⟨fun hlt => hh.1 (by omega), fun hle => hh.2 (by omega)⟩

theorem owner_iff {rs : List (Int × Int)} {n : Int} (h : Contig 0 n rs) {k : Int} {i' : Nat}
    (ho : Owns rs i' k) : ∀ i, Owns rs i k ↔ i = i' :=
  fun _ => ⟨fun hi => h.owner_unique hi ho, fun e => e ▸ ho⟩

theorem moveLoop_spec (uzOn : Bool) (old new : List (Int × Int)) (b : Int)
    (hold : Contig 0 b old) (hnew : Contig 0 b new) (content ucontent : Int → Kind → Option α) :
    ∀ (n : Nat) (k : Int) (i : Nat) (os : List Int) (j : Nat) (ns : List Int) (w : Workers α),
      k + n = b → At old b i os k → At new b j ns k → Mid CellKind old new content k w.rx →
      (uzOn = true → Mid (fun _ => True) old new ucontent k w.uz) →
      ∃ w', moveLoop uzOn n k i os j ns w = .ok w' ∧ Mid CellKind old new content b w'.rx ∧
        (uzOn = true → Mid (fun _ => True) old new ucontent b w'.uz) := by
  intro n
  induction n with
  | zero =>
    intro k i os j ns w hk _ _ hm hu
    have : k = b := by omega
    subst this
    exact ⟨w, rfl, hm, hu⟩
  | succ n ih =>
    intro k i os j ns w hk hi hj hm hu
    obtain ⟨i', os', ei, oi, ai, _⟩ := advance_spec old b k (by omega) os i hi
    obtain ⟨j', ns', ej, oj, aj, _⟩ := advance_spec new b k (by omega) ns j hj
    simp only [moveLoop, ei, ej, Out.ok_bind]
    have own1 := owner_iff hold oi
    have own2 := owner_iff hnew oj
    apply ih (k + 1) i' os' j' ns' _ (by omega) ai aj
    · apply hm.step own1 own2
      intro i c kd hP
      by_cases e : i' = j'
      · simp [e]
      · simp only [if_neg e]
        rw [moveCell_rx _ _ _ _ _ e]
        simp only [(mem_toBinKinds kd).mpr hP, true_and]
    · intro hon
      subst hon
      apply (hu rfl).step own1 own2
      intro i c kd _
      by_cases e : i' = j'
      · simp [e]
      · simp only [if_neg e]
        rw [moveCell_uz _ _ _ _ e]

theorem contig_at {b : Int} {rs : List (Int × Int)} (h : Contig 0 b rs) :
    At rs b 0 (rs.map Prod.snd) 0 :=
  ⟨0, rs, rfl, rfl, h, Int.le_refl _⟩

theorem mid_zero {P : Kind → Prop} {old new : List (Int × Int)} {b : Int}
    {content : Int → Kind → Option α} {w : Nat → Bin α}
    (hnew : Contig 0 b new)
    (hh : HeldByOwners P old content w) (hneg : ∀ i c k, P k → c < 0 → w i k c = none) :
    Mid P old new content 0 w := by
  intro i c kd hP
  refine ⟨fun hc => ⟨fun ho => ?_, fun _ => hneg i c kd hP hc⟩, fun _ => hh i c kd hP⟩
  have := hnew.owns_bounds ho
  omega

/-- C07. Whatever the old and the new partition of the cells, with the same or a
different number of ranges, moving the cells terminates without reading out of bounds;
afterwards every cell of seven kinds of reactant is held by its new owner only, with
unchanged contents; with partitioning of unsaturated-zone solids on, the same holds for
the unsaturated-zone reactants of all kinds. -/
theorem redistribute_lossless (uzOn : Bool) (count m n : Nat) (old new : List (Int × Int))
    (w : Workers α) (content ucontent : Int → Kind → Option α)
    (hold : IsPartition count m old) (hnew : IsPartition count n new)
    (hrx : HeldByOwners CellKind old content w.rx)
    (huz : HeldByOwners (fun _ => True) old ucontent w.uz) :
    ∃ w', redistribute uzOn count old new w = .ok w' ∧ HeldByOwners CellKind new content w'.rx ∧
      (uzOn = true → HeldByOwners (fun _ => True) new ucontent w'.uz) := by
  have neg : ∀ {P : Kind → Prop} {ct : Int → Kind → Option α} {v : Nat → Bin α},
      HeldByOwners P old ct v → ∀ i c k, P k → c < 0 → v i k c = none := by
    intro P ct v h i c k hP hc
    refine (h i c k hP).2 (fun ho => ?_)
    have := hold.2.owns_bounds ho
    omega
  obtain ⟨w', e, h1, h2⟩ := moveLoop_spec uzOn old new count hold.2 hnew.2 content ucontent count 0
    0 _ 0 _ w (by omega) (contig_at hold.2) (contig_at hnew.2) (mid_zero hnew.2 hrx (neg hrx))
    (fun _ => mid_zero hnew.2 huz (neg huz))
  have fin : ∀ {P : Kind → Prop} {ct : Int → Kind → Option α} {v : Nat → Bin α},
      Mid P old new ct count v → HeldByOwners P new ct v := by
    intro P ct v h i c k hP
    by_cases hc : c < (count : Int)
    · exact (h i c k hP).1 hc
    · refine ⟨fun ho => ?_, fun _ => ?_⟩
      · have := hnew.2.owns_bounds ho
        omega
      · refine ((h i c k hP).2 (by omega)).2 (fun ho => ?_)
        have := hold.2.owns_bounds ho
        omega
  exact ⟨w', e, fin h1, fun hon => fin (h2 hon)⟩

/-- Example for C07: three cells with a solution each; cell 1 moves from worker 1 to
worker 0. -/
example : ∃ w', redistribute true 3 [(0, 0), (1, 2)] [(0, 1), (2, 2)]
      ⟨fun i k c => if k = .solution ∧ ((i = 0 ∧ c = 0) ∨ (i = 1 ∧ (c = 1 ∨ c = 2)))
        then some (c * 10) else none, fun _ => empty⟩ = .ok w' ∧
      w'.rx 0 .solution 1 = some 10 ∧ w'.rx 1 .solution 1 = none :=
  ⟨_, rfl, by decide, by decide⟩

/-- C64: a definition given to all workers for one cell (such as `REACTION 1` passed to
`RunString` with `workers` set) is still with the owner of the cell after any sequence
of changes of the ranges. -/
def KeepsDefinition (k : Kind) : Prop :=
  ∀ (count m : Nat) (parts : List (List (Int × Int))) (r0 : List (Int × Int)) (w : Workers Nat)
    (c : Int) (v : Nat), IsPartition count m r0 → (∀ r ∈ parts, IsPartition count m r) →
    (∀ i, i < m → w.rx i k c = some v) →
    ∀ w', ((r0 :: parts).zip parts).foldlM (fun w p => redistribute false count p.1 p.2 w) w =
        .ok w' → ∀ i, Owns ((r0 :: parts).getLastD []) i c → w'.rx i k c = some v

/-- C64 fails for reactions (and in the same way for mixes, temperatures and
pressures): moving cell 1 from worker 1 to worker 0 and back deletes the definition
from both. -/
theorem redistribute_reaction_violated : ¬ KeepsDefinition .reaction := by
  intro h
  have := h 3 2 [[(0, 1), (2, 2)], [(0, 0), (1, 2)]] [(0, 0), (1, 2)]
    ⟨fun i k c => if k = .reaction ∧ c = 1 ∧ i < 2 then some 7 else none, fun _ => empty⟩ 1 7
    ⟨rfl, by simp [Contig]⟩ (by
      intro r hr
      simp only [List.mem_cons, List.not_mem_nil, or_false] at hr
      rcases hr with e | e <;> subst e <;> exact ⟨rfl, by simp [Contig]⟩)
    (by intro i hi; simp [hi]) _ rfl 1 ⟨(1, 2), rfl, by decide, by decide⟩
  exact absurd this (by decide)

/-- C65: the unsaturated-zone reactants follow their cell even if partitioning was
switched off (`SetPartitionUZSolids(false)`) while the ranges changed. -/
def UZFollows (uzOn : Bool) : Prop :=
  ∀ (count m : Nat) (old new : List (Int × Int)) (w w' : Workers Nat)
    (ucontent : Int → Kind → Option Nat), IsPartition count m old → IsPartition count m new →
    HeldByOwners (fun _ => True) old ucontent w.uz →
    redistribute uzOn count old new w = .ok w' → HeldByOwners (fun _ => True) new ucontent w'.uz

/-- C65 holds while partitioning is on. -/
theorem redistribute_uz_partial (count m : Nat) (old new : List (Int × Int)) (w w' : Workers Nat)
    (content ucontent : Int → Kind → Option Nat) (hold : IsPartition count m old)
    (hnew : IsPartition count m new) (hrx : HeldByOwners CellKind old content w.rx)
    (huz : HeldByOwners (fun _ => True) old ucontent w.uz)
    (hr : redistribute true count old new w = .ok w') :
    HeldByOwners (fun _ => True) new ucontent w'.uz := by
  obtain ⟨w1, e, _, h⟩ := redistribute_lossless true count m m old new w content ucontent hold hnew
    hrx huz
  rw [e] at hr
  cases hr
  exact h rfl

/-- C65 fails while partitioning is off: the unsaturated-zone reactants of cell 1 stay
with worker 1. -/
theorem redistribute_uz_violated : ¬ UZFollows false := by
  intro h
  have := h 3 2 [(0, 0), (1, 2)] [(0, 1), (2, 2)]
    ⟨fun _ => empty, fun i k c => if k = .surface ∧ c = 1 ∧ i = 1 then some 7 else none⟩ _
    (fun c k => if k = .surface ∧ c = 1 then some 7 else none)
    ⟨rfl, by simp [Contig]⟩ ⟨rfl, by simp [Contig]⟩
    (by
      intro i c k _
      by_cases hk : k = .surface <;> by_cases hc : c = 1 <;> simp only [hk, hc, true_and, false_and,
        if_false, implies_true, and_self]
      subst hc
      refine ⟨fun ho => ?_, fun ho => ?_⟩
      · obtain ⟨r, hr, h1, h2⟩ := ho
        match i with
        | 0 => simp at hr; subst hr; simp at h2
        | 1 => simp
        | n + 2 => simp at hr
      · have : i ≠ 1 := by
          intro e; subst e
          exact ho ⟨(1, 2), rfl, by decide, by decide⟩
        simp [this]) rfl 0 1 .surface trivial
  have h1 := this.1 ⟨(0, 1), rfl, by decide, by decide⟩
  exact absurd h1 (by decide)

/-- C08. `contents` gives the reactants of every cell. For every partition of the
cells into worker ranges, every assignment of contents to the owners, every function
`react` giving the outcome of one cell, and every schedule in which all workers get to
the end of their cells: if no cell fails (or failures are passed over, mode 3), no
worker fails and every cell ends as `react` says (unchanged if it failed) — an
expression in which workers, ranges and schedule do not occur. -/
theorem run_independent (react : Int → Cell α → Option (Cell α)) (cont : Bool) (count m : Nat)
    (rs : List (Int × Int)) (contents : Int → Cell α) (w : Nat → Bin α) (sched : List Nat)
    (hp : IsPartition count m rs)
    (hw : ∀ i c, Owns rs i c → cellOf (w i) c = contents c)
    (hdone : ∀ i, (runSchedule react cont sched (startThreads rs w) i).todo = [])
    (hok : cont = true ∨ ∀ c : Int, 0 ≤ c → c < count → (react c (contents c)).isSome) :
    (∀ i, (runSchedule react cont sched (startThreads rs w) i).failed = false) ∧
    ∀ c : Int, 0 ≤ c → c < count → ∃ i, Owns rs i c ∧
      cellOf (runSchedule react cont sched (startThreads rs w) i).bin c =
        (react c (contents c)).getD (contents c) := by
  have key : ∀ i r, rs[i]? = some r →
      (runSchedule react cont sched (startThreads rs w) i).bin =
        (runAll react cont (rangeCells r) (w i)).1 ∧
      (runSchedule react cont sched (startThreads rs w) i).failed =
        (runAll react cont (rangeCells r) (w i)).2 := by
    intro i r hr
    have hd := hdone i
    rw [runSchedule_apply] at hd ⊢
    have e : startThreads rs w i = ⟨w i, rangeCells r, false⟩ := by simp [startThreads, hr]
    rw [e] at hd ⊢
    exact steps_runAll react cont _ _ _ hd
  have hall : ∀ i r, rs[i]? = some r →
      (cont = true ∨ ∀ c ∈ rangeCells r, (react c (cellOf (w i) c)).isSome) := by
    intro i r hr
    rcases hok with h | h
    · exact .inl h
    · right
      intro c hc
      have ho : Owns rs i c := ⟨r, hr, (mem_rangeCells r c).mp hc⟩
      have hb := hp.2.owns_bounds ho
      rw [hw i c ho]
      exact h c hb.1 hb.2
  constructor
  · intro i
    cases hr : rs[i]? with
    | none =>
      rw [runSchedule_apply]
      have e : startThreads rs w i = ⟨w i, [], false⟩ := by simp [startThreads, hr]
      rw [e, step_done _ _ _ rfl]
    | some r =>
      rw [(key i r hr).2]
      exact (runAll_ok react cont _ _ (nodup_rangeCells r) (hall i r hr)).1
  · intro c h0 h1
    obtain ⟨i, _, ho⟩ := hp.2.owner h0 h1
    refine ⟨i, ho, ?_⟩
    obtain ⟨r, hr, hc⟩ := ho
    rw [(key i r hr).1, (runAll_ok react cont _ _ (nodup_rangeCells r) (hall i r hr)).2 c,
      if_pos ((mem_rangeCells r c).mpr hc), hw i c ⟨r, hr, hc⟩]

/-- C08, errors. In modes below 3 some worker reports an error exactly when some cell
fails, again whatever the partition and the schedule. -/
theorem run_error_independent (react : Int → Cell α → Option (Cell α)) (count m : Nat)
    (rs : List (Int × Int)) (contents : Int → Cell α) (w : Nat → Bin α) (sched : List Nat)
    (hp : IsPartition count m rs)
    (hw : ∀ i c, Owns rs i c → cellOf (w i) c = contents c)
    (hdone : ∀ i, (runSchedule react false sched (startThreads rs w) i).todo = []) :
    (∃ i, (runSchedule react false sched (startThreads rs w) i).failed = true) ↔
      ∃ c : Int, 0 ≤ c ∧ c < count ∧ react c (contents c) = none := by
  have key : ∀ i r, rs[i]? = some r →
      (runSchedule react false sched (startThreads rs w) i).failed =
        (runAll react false (rangeCells r) (w i)).2 := by
    intro i r hr
    have hd := hdone i
    rw [runSchedule_apply] at hd ⊢
    have e : startThreads rs w i = ⟨w i, rangeCells r, false⟩ := by simp [startThreads, hr]
    rw [e] at hd ⊢
    exact (steps_runAll react false _ _ _ hd).2
  constructor
  · rintro ⟨i, hi⟩
    cases hr : rs[i]? with
    | none =>
      rw [runSchedule_apply] at hi
      have e : startThreads rs w i = ⟨w i, [], false⟩ := by simp [startThreads, hr]
      rw [e, step_done _ _ _ rfl] at hi
      simp at hi
    | some r =>
      rw [key i r hr, runAll_failed _ _ _ (nodup_rangeCells r)] at hi
      obtain ⟨c, hc, e⟩ := hi
      have ho : Owns rs i c := ⟨r, hr, (mem_rangeCells r c).mp hc⟩
      rw [hw i c ho] at e
      have hb := hp.2.owns_bounds ho
      exact ⟨c, hb.1, hb.2, e⟩
  · rintro ⟨c, h0, h1, e⟩
    obtain ⟨i, _, ho⟩ := hp.2.owner h0 h1
    have ho' := ho
    obtain ⟨r, hr, hc⟩ := ho
    refine ⟨i, ?_⟩
    rw [key i r hr, runAll_failed _ _ _ (nodup_rangeCells r)]
    exact ⟨c, (mem_rangeCells r c).mpr hc, by rw [hw i c ho']; exact e⟩

/-- Schedules that reach the end exist: three cells, two workers, an interleaving. -/
example : let ts := startThreads [(0, 0), (1, 2)] (fun _ => (fun k _ => if k = .solution then some 1 else none : Bin Nat))
    ∀ i, (runSchedule (fun _ x => some (fun k => (x k).map (· + 1))) false [1, 0, 1] ts i).todo = [] := by
  intro ts i
  match i with
  | 0 => rfl
  | 1 => rfl
  | n + 2 => rfl

end Verif.Transfer
