import Verif.PartitionUZ.Model
import Mathlib.Tactic.Linarith
import Mathlib.Tactic.FieldSimp
import Mathlib.Tactic.Ring
import Mathlib.Algebra.Order.Field.Basic

/-! # C09, C10, C11, C66: unsaturated-zone partitioning -/

namespace Verif.PartitionUZ

open Verif.Store

/-- Amount of one substance in an entity that may be absent. -/
def amount {E : Type} (m : E → ℚ) : Option E → ℚ
  | none => 0
  | some e => m e

@[simp] theorem amount_none {E : Type} (m : E → ℚ) : amount m none = 0 := rfl
@[simp] theorem amount_some {E : Type} (m : E → ℚ) (e : E) : amount m (some e) = m e := rfl

/-- Mixing is linear in the substance measured by `m`. -/
def Linear {E : Type} (m : Kind → E → ℚ) (mix : Kind → E → Option E → ℚ → ℚ → E) : Prop :=
  ∀ k a b f g, m k (mix k a b f g) = f * m k a + g * amount (m k) b

/-- The kinds of reactant that are solid or held by solids, and the gas phase: everything a
cell can hold besides its solution and the definitions of runs. -/
def Solid : Kind → Prop
  | .exchange | .ppAssemblage | .gasPhase | .ssAssemblage | .kinetics | .surface => True
  | _ => False

/-- Whatever is in the unsaturated zone has a counterpart in the saturated zone. -/
def Paired {E : Type} (c : UZCell E) : Prop := ∀ k, c.sz k = none → c.uz k = none

/-- Total amount over both zones. -/
def total {E : Type} (m : Kind → E → ℚ) (c : UZCell E) (k : Kind) : ℚ :=
  amount (m k) (c.sz k) + amount (m k) (c.uz k)

/-- C10. For all saturations, even outside [0,1]: no division by zero, all four fractions
are in [0,1], and the fractions of each source add up to one. -/
theorem fractions_spec (old new : ℚ) :
    ∃ f, fractions old new = some f ∧ 0 ≤ f.s1 ∧ f.s1 ≤ 1 ∧ 0 ≤ f.s2 ∧ f.s2 ≤ 1 ∧ 0 ≤ f.uz1 ∧
      f.uz1 ≤ 1 ∧ 0 ≤ f.uz2 ∧ f.uz2 ≤ 1 ∧ f.s1 + f.uz1 = 1 ∧ f.s2 + f.uz2 = 1 := by
  unfold fractions
  split
  · exact ⟨_, rfl, by norm_num⟩
  · split
    · exact ⟨_, rfl, by norm_num⟩
    · rename_i h1 h2
      have h1 := lt_of_not_ge h1
      have h2 := lt_of_not_ge h2
      split
      · rename_i h3
        have hd : (0 : ℚ) < 1 - old := by linarith
        have h4 : (1 - new) / (1 - old) ≤ 1 := by
          rw [div_le_one hd]; linarith
        have h5 : 0 ≤ (1 - new) / (1 - old) := div_nonneg (by linarith) (le_of_lt hd)
        rw [divD, if_neg (ne_of_gt hd)]
        refine ⟨_, rfl, ?_⟩
        simp only
        refine ⟨by norm_num, by norm_num, by linarith, by linarith, by norm_num, by norm_num, h5,
          h4, by norm_num, by ring⟩
      · rename_i h3
        have h3 := le_of_not_gt h3
        have hd : (0 : ℚ) < old := by linarith
        have h4 : new / old ≤ 1 := by rw [div_le_one hd]; exact h3
        have h5 : 0 ≤ new / old := div_nonneg (by linarith) (le_of_lt hd)
        rw [divD, if_neg (ne_of_gt hd)]
        refine ⟨_, rfl, ?_⟩
        simp only
        refine ⟨h5, h4, by norm_num, by norm_num, by linarith, by linarith, by norm_num,
          by norm_num, by ring, by norm_num⟩

example : fractions (1 / 2) (3 / 4) = some ⟨1, 1 / 2, 0, 1 / 2⟩ := by decide +kernel
example : fractions (1 / 2) (1 / 4) = some ⟨1 / 2, 0, 1 / 2, 1⟩ := by decide +kernel

variable {E : Type}

theorem splitKind_apply (mix : Kind → E → Option E → ℚ → ℚ → E) (f : Fractions) (c : UZCell E)
    (k k' : Kind) :
    ((splitKind mix f c k).sz k' =
      if k' = k then (c.sz k).map (fun a => mix k a (c.uz k) f.s1 f.s2) else c.sz k') ∧
    ((splitKind mix f c k).uz k' =
      if k' = k ∧ c.sz k ≠ none then (c.sz k).map (fun a => mix k a (c.uz k) f.uz1 f.uz2)
      else c.uz k') := by
  cases h : c.sz k with
  | none =>
    simp only [splitKind, h]
    constructor
    · split
      · rename_i e; subst e; simp [h]
      · rfl
    · simp
  | some a =>
    simp only [splitKind, h]
    constructor
    · split <;> simp_all
    · split <;> simp_all

theorem foldl_split (mix : Kind → E → Option E → ℚ → ℚ → E) (f : Fractions) (ks : List Kind)
    (hn : ks.Nodup) : ∀ (c : UZCell E) (k : Kind),
    ((ks.foldl (splitKind mix f) c).sz k =
      if k ∈ ks then (c.sz k).map (fun a => mix k a (c.uz k) f.s1 f.s2) else c.sz k) ∧
    ((ks.foldl (splitKind mix f) c).uz k =
      if k ∈ ks ∧ c.sz k ≠ none then (c.sz k).map (fun a => mix k a (c.uz k) f.uz1 f.uz2)
      else c.uz k) := by
  induction ks with
  | nil => intro c k; simp
  | cons x xs ih =>
    intro c k
    obtain ⟨hx, hxs⟩ := List.nodup_cons.mp hn
    obtain ⟨h1, h2⟩ := ih hxs (splitKind mix f c x) k
    obtain ⟨h3, h4⟩ := splitKind_apply mix f c x k
    rw [List.foldl_cons]
    by_cases e : k = x
    · subst e
      simp only [hx, if_false, false_and] at h1 h2
      simp only [List.mem_cons, true_or, if_true, true_and]
      rw [h1, h2, h3, h4]
      simp
    · simp only [e, if_false, false_and] at h3 h4
      simp only [List.mem_cons, e, false_or]
      rw [h1, h2, h3, h4]
      simp

theorem uzKinds_nodup : uzKinds.Nodup := by decide

theorem mem_uzKinds (k : Kind) : k ∈ uzKinds ↔ Solid k := by
  cases k <;> simp [uzKinds, Solid]

/-- C09, one call. For all saturations and every linear way of mixing: the call does not
divide by zero, and the total of every split kind over both zones is unchanged; kinds
that are not split (the solution) are untouched. -/
theorem partitionUZ_conserves (m : Kind → E → ℚ) (mix : Kind → E → Option E → ℚ → ℚ → E)
    (hlin : Linear m mix) (c : UZCell E) (new : ℚ) (hp : Paired c)
    (hk : ∀ k, ¬ Solid k → c.uz k = none) :
    ∃ c', partitionUZ mix c new = .ok c' ∧ (∀ k, total m c' k = total m c k) ∧ Paired c' ∧
      (∀ k, ¬ Solid k → c'.uz k = none) ∧ (∀ k, c'.sz k = none ↔ c.sz k = none) := by
  unfold partitionUZ
  split
  · exact ⟨c, rfl, fun _ => rfl, hp, hk, fun _ => Iff.rfl⟩
  · obtain ⟨f, e, _, _, _, _, _, _, _, _, a1, a2⟩ := fractions_spec c.old new
    have hall : new ≥ 1 → f.uz1 = 0 ∧ f.uz2 = 0 := by
      intro h
      unfold fractions at e
      rw [if_pos h] at e
      cases e
      exact ⟨rfl, rfl⟩
    simp only [e]
    have hs := fun k => (foldl_split mix f uzKinds uzKinds_nodup c k).1
    have hu := fun k => (foldl_split mix f uzKinds uzKinds_nodup c k).2
    generalize uzKinds.foldl (splitKind mix f) c = c1 at hs hu
    have hsn : ∀ k, c1.sz k = none ↔ c.sz k = none := by
      intro k
      rw [hs k]
      split
      · simp
      · rfl
    -- amounts of the split before the removal
    have hsum : ∀ k, amount (m k) (c1.sz k) + amount (m k) (c1.uz k) = total m c k := by
      intro k
      rw [hs k, hu k, total]
      by_cases hmem : k ∈ uzKinds
      · cases hc : c.sz k with
        | none => simp [hmem, hp k hc]
        | some a =>
          simp only [hmem, if_true, Option.map_some, amount_some, ne_eq, reduceCtorEq, not_false_eq_true,
            and_self]
          rw [hlin, hlin]
          have e1 : f.s1 = 1 - f.uz1 := by linarith
          have e2 : f.s2 = 1 - f.uz2 := by linarith
          rw [e1, e2]; ring
      · simp [hmem]
    have huz0 : new ≥ 1 → ∀ k, amount (m k) (c1.uz k) = 0 := by
      intro h k
      obtain ⟨z1, z2⟩ := hall h
      rw [hu k]
      by_cases hmem : k ∈ uzKinds
      · cases hc : c.sz k with
        | none => simp [hp k hc]
        | some a =>
          simp only [hmem, Option.map_some, amount_some, ne_eq, reduceCtorEq, not_false_eq_true,
            and_self, if_true]
          rw [hlin, z1, z2]; ring
      · simp [hmem, hk k (fun h => hmem ((mem_uzKinds k).mpr h))]
    refine ⟨_, rfl, ?_, ?_, ?_, hsn⟩
    · intro k
      have h1 := hsum k
      simp only [total] at h1 ⊢
      split
      · rename_i hge
        have h2 := huz0 hge k
        rw [amount_none]
        linarith
      · exact h1
    · intro k h
      simp only at h ⊢
      split
      · rfl
      · rw [hu k]
        have := (hsn k).mp h
        simp [this, hp k this]
    · intro k h
      simp only
      split
      · rfl
      · rw [hu k]; simp [mt (mem_uzKinds k).mp h, hk k h]

/-- One event in the life of a cell: a saturation change, or a reaction that replaces
the entities of the saturated zone. -/
inductive Event (E : Type) where
  | sat (s : ℚ)
  | react (g : Kind → E → E)

/-- The events applied in order. -/
def runEvents (mix : Kind → E → Option E → ℚ → ℚ → E) : List (Event E) → UZCell E → Out (UZCell E)
  | [], c => .ok c
  | .sat s :: es, c => do
    let c' ← partitionUZ mix c s
    runEvents mix es c'
  | .react g :: es, c => runEvents mix es { c with sz := fun k => (c.sz k).map (g k) }

/-- Continue with the result of a call that succeeded. -/
def afterOk {β : Type} (o : Out β) (g : β → ℚ) : ℚ :=
  match o with
  | .ok b => g b
  | _ => 0

/-- The change of the total that the reactions of a history account for. -/
def produced (m : Kind → E → ℚ) (mix : Kind → E → Option E → ℚ → ℚ → E) (k : Kind) :
    List (Event E) → UZCell E → ℚ
  | [], _ => 0
  | .sat s :: es, c =>
    afterOk (partitionUZ mix c s) (fun c' => produced m mix k es c')
  | .react g :: es, c =>
    (amount (m k) ((c.sz k).map (g k)) - amount (m k) (c.sz k)) +
      produced m mix k es { c with sz := fun k => (c.sz k).map (g k) }

/-- C09. For every finite history of saturation changes (any values) and reactions, the
total amount of each solid over both zones changes only by what the reactions produce;
with no reactions in the history it is constant. -/
theorem history_conserves (m : Kind → E → ℚ) (mix : Kind → E → Option E → ℚ → ℚ → E)
    (hlin : Linear m mix) (es : List (Event E)) : ∀ (c : UZCell E), Paired c →
    (∀ k, ¬ Solid k → c.uz k = none) →
    ∃ c', runEvents mix es c = .ok c' ∧ ∀ k, total m c' k = total m c k + produced m mix k es c := by
  induction es with
  | nil => intro c _ _; exact ⟨c, rfl, fun k => (add_zero _).symm⟩
  | cons e es ih =>
    intro c hp hk
    cases e with
    | sat s =>
      obtain ⟨c1, e1, h1, h2, h3, _⟩ := partitionUZ_conserves m mix hlin c s hp hk
      obtain ⟨c', e2, h4⟩ := ih c1 h2 h3
      refine ⟨c', ?_, fun k => ?_⟩
      · simp only [runEvents, e1, Out.ok_bind, e2]
      · rw [h4 k, h1 k]; simp only [produced, e1, afterOk]
    | react g =>
      have hp' : Paired ({ c with sz := fun k => (c.sz k).map (g k) } : UZCell E) := by
        intro k h
        simp only [Option.map_eq_none_iff] at h
        exact hp k h
      obtain ⟨c', e2, h4⟩ := ih _ hp' hk
      refine ⟨c', e2, fun k => ?_⟩
      rw [h4 k]
      simp only [total, produced]
      ring

/-- Entities that are just an amount, mixed linearly: a model of the hypotheses. -/
def mixQ : Kind → ℚ → Option ℚ → ℚ → ℚ → ℚ := fun _ a b f g => f * a + g * amount id b

theorem mixQ_linear : Linear (fun _ => id) mixQ := by
  intro k a b f g
  simp only [mixQ, id_eq]

/-- Draining to 1/4, then wetting to 1/2, starting from 8 moles in a saturated cell. -/
example : (match runEvents mixQ [.sat (1 / 4), .sat (1 / 2)]
      ⟨fun k => if k = .exchange then some 8 else none, fun _ => none, 1⟩ with
    | .ok c' => (c'.sz .exchange, c'.uz .exchange)
    | _ => (none, none)) = (some 4, some 4) := by decide +kernel

/-- C66. Without reactions the split does not depend on the history: if the saturated
zone holds the fraction `old` of the total before the call, it holds the fraction `new`
of the total after a call that is not skipped, provided `new` is 0 or more than 1e-6. -/
theorem partitionUZ_proportional (m : Kind → E → ℚ) (mix : Kind → E → Option E → ℚ → ℚ → E)
    (hlin : Linear m mix) (c c' : UZCell E) (new : ℚ) (hp : Paired c)
    (hk : ∀ k, ¬ Solid k → c.uz k = none) (k : Kind) (hmem : Solid k)
    (hnew : new = 0 ∨ (1 / 1000000 < new ∧ new ≤ 1))
    (hbefore : amount (m k) (c.sz k) = c.old * total m c k)
    (hmoved : ¬ |c.old - new| < 1 / 100000000)
    (hc' : partitionUZ mix c new = .ok c') :
    amount (m k) (c'.sz k) = new * total m c' k ∧ c'.old = new := by
  obtain ⟨c1, e1, htot, _, _, _⟩ := partitionUZ_conserves m mix hlin c new hp hk
  rw [hc'] at e1
  cases e1
  rw [htot k]
  have hT : amount (m k) (c.uz k) = (1 - c.old) * total m c k := by
    have : total m c k = amount (m k) (c.sz k) + amount (m k) (c.uz k) := rfl
    linarith
  unfold partitionUZ at hc'
  rw [if_neg hmoved] at hc'
  cases hf : fractions c.old new with
  | none => rw [hf] at hc'; simp at hc'
  | some f =>
    rw [hf] at hc'
    simp only [Out.ok.injEq] at hc'
    subst hc'
    refine ⟨?_, rfl⟩
    simp only
    rw [(foldl_split mix f uzKinds uzKinds_nodup c k).1]
    simp only [(mem_uzKinds k).mpr hmem, if_true]
    have hsz : amount (m k) ((c.sz k).map (fun a => mix k a (c.uz k) f.s1 f.s2)) =
        f.s1 * amount (m k) (c.sz k) + f.s2 * amount (m k) (c.uz k) := by
      cases hc : c.sz k with
      | none => simp [hp k hc]
      | some a => simp only [Option.map_some, amount_some]; rw [hlin]
    rw [hsz, hbefore, hT]
    unfold fractions at hf
    split at hf
    · rename_i h1
      cases hf
      have : new = 1 := by
        rcases hnew with h | h
        · linarith
        · linarith [h.2]
      subst this
      simp only
      ring
    · rename_i h1
      have h1 := lt_of_not_ge h1
      split at hf
      · rename_i h2
        cases hf
        have : new = 0 := by
          rcases hnew with h | h
          · exact h
          · linarith [h.1]
        subst this
        simp
      · rename_i h2
        have h2 := lt_of_not_ge h2
        split at hf
        · rename_i h3
          have hd : (0 : ℚ) < 1 - c.old := by linarith
          rw [divD, if_neg (ne_of_gt hd)] at hf
          simp only [Option.map_some, Option.some.injEq] at hf
          subst hf
          simp only
          field_simp
          ring
        · rename_i h3
          have h3 := le_of_not_gt h3
          have hd : (0 : ℚ) < c.old := by linarith
          rw [divD, if_neg (ne_of_gt hd)] at hf
          simp only [Option.map_some, Option.some.injEq] at hf
          subst hf
          simp only
          field_simp
          ring

/-- The call of the previous example meets the hypotheses of C66. -/
example : let c : UZCell ℚ := ⟨fun k => if k = .exchange then some 8 else none, fun _ => none, 1⟩
    ¬ |c.old - 1 / 4| < 1 / 100000000 ∧ amount id (c.sz .exchange) = c.old * total (fun _ => id) c .exchange := by
  decide +kernel

/-- Runs of `RunCells` with the given saturations and no reactions. -/
def runSats (mix : Kind → E → Option E → ℚ → ℚ → E) : List ℚ → UZCell E → Out (UZCell E)
  | [], c => .ok c
  | s :: ss, c => do
    let c' ← runCell mix id c s
    runSats mix ss c'

/-- C11: after any history of saturations the amount in the saturated zone differs from
the saturation times the total by at most the tolerance times the total. -/
def DriftBounded : Prop :=
  ∀ (h : List ℚ) (s : ℚ) (T : ℚ) (c' : UZCell ℚ), (∀ x ∈ h, 0 < x ∧ x < 1) → 0 < T →
    0 < s → s < 1 →
    runSats mixQ (h ++ [s])
      ⟨fun k => if k = .exchange then some T else none, fun _ => none, 1⟩ = .ok c' →
    |amount id (c'.sz .exchange) - s * T| ≤ 1 / 100000000 * T

/-- C11 is violated: `RunCells` overwrites the remembered saturation even when
`PartitionUZ` skipped the cell, so small changes add up without ever being applied.
Two steps of 9e-9 are enough to exceed the tolerance. -/
theorem drift_violated : ¬ DriftBounded := by
  intro h
  have key : (match runSats mixQ ([1 / 2, 1 / 2 + 9 / 1000000000] ++ [1 / 2 + 18 / 1000000000])
        ⟨fun k => if k = .exchange then some 1 else none, fun _ => none, 1⟩ with
      | .ok c' => some (amount id (c'.sz .exchange))
      | _ => none) = some (1 / 2) := by decide +kernel
  cases hr : runSats mixQ ([1 / 2, 1 / 2 + 9 / 1000000000] ++ [1 / 2 + 18 / 1000000000])
      ⟨fun k => if k = .exchange then some 1 else none, fun _ => none, 1⟩ with
  | throw => rw [hr] at key; simp at key
  | ub => rw [hr] at key; simp at key
  | ok c' =>
    rw [hr] at key
    simp only [Option.some.injEq] at key
    have := h _ _ _ c'
      (by intro x hx; simp at hx; rcases hx with e | e <;> subst e <;> norm_num)
      (by norm_num) (by norm_num) (by norm_num) hr
    rw [key] at this
    exact absurd this (by decide +kernel)

/-- The drift is unbounded: after `n` further runs, each raising the saturation by 9e-9,
the solids are still split as they were. -/
theorem drift_unbounded (mix : Kind → E → Option E → ℚ → ℚ → E) (c : UZCell E) (n : Nat) :
    ∃ c', runSats mix ((List.range n).map (fun i : Nat => c.old + (i + 1) * (9 / 1000000000))) c =
      .ok c' ∧ c'.sz = c.sz ∧ c'.uz = c.uz ∧ c'.old = c.old + n * (9 / 1000000000) := by
  have gen : ∀ (n k : Nat) (d : UZCell E), d.sz = c.sz → d.uz = c.uz →
      d.old = c.old + k * (9 / 1000000000) →
      ∃ c', runSats mix ((List.range' k n).map (fun i : Nat => c.old + (i + 1) * (9 / 1000000000))) d =
        .ok c' ∧ c'.sz = c.sz ∧ c'.uz = c.uz ∧ c'.old = c.old + ((k + n : Nat) : ℚ) * (9 / 1000000000) := by
    intro n
    induction n with
    | zero => intro k d h1 h2 h3; exact ⟨d, rfl, h1, h2, by simpa using h3⟩
    | succ n ih =>
      intro k d h1 h2 h3
      have hstep : runCell mix id d (c.old + (k + 1) * (9 / 1000000000)) =
          .ok { sz := d.sz, uz := d.uz, old := c.old + (k + 1) * (9 / 1000000000) } := by
        have hd : |d.old - (c.old + (k + 1) * (9 / 1000000000))| < 1 / 100000000 := by
          rw [h3, show c.old + (k : ℚ) * (9 / 1000000000) - (c.old + (k + 1) * (9 / 1000000000)) =
            -(9 / 1000000000) by ring]
          decide +kernel
        simp only [runCell, partitionUZ, if_pos hd, Out.ok_bind, Out.pure_eq, id_eq]
      obtain ⟨c', e, g1, g2, g3⟩ := ih (k + 1)
        { sz := d.sz, uz := d.uz, old := c.old + (k + 1) * (9 / 1000000000) } h1 h2 (by push_cast; rfl)
      refine ⟨c', ?_, g1, g2, ?_⟩
      · rw [List.range'_succ, List.map_cons, runSats, hstep, Out.ok_bind]
        exact e
      · rw [g3, show k + 1 + n = k + (n + 1) by omega]
  obtain ⟨c', h1, h2, h3, h4⟩ := gen n 0 c rfl rfl (by simp)
  refine ⟨c', ?_, h2, h3, by simpa using h4⟩
  rw [List.range_eq_range']
  exact h1

/-- C11, the part that holds: a single run whose saturation differs from the remembered
one by the tolerance or more does repartition. -/
theorem drift_partial (m : Kind → E → ℚ) (mix : Kind → E → Option E → ℚ → ℚ → E)
    (hlin : Linear m mix) (c c' : UZCell E) (s : ℚ) (hp : Paired c)
    (hk : ∀ k, ¬ Solid k → c.uz k = none) (k : Kind) (hmem : Solid k)
    (hs : s = 0 ∨ (1 / 1000000 < s ∧ s ≤ 1))
    (hbefore : amount (m k) (c.sz k) = c.old * total m c k)
    (hmoved : 1 / 100000000 ≤ |c.old - s|) (hc' : runCell mix id c s = .ok c') :
    amount (m k) (c'.sz k) = s * total m c' k := by
  obtain ⟨c1, e1, _⟩ := partitionUZ_conserves m mix hlin c s hp hk
  have h := partitionUZ_proportional m mix hlin c c1 s hp hk k hmem hs hbefore
    (not_lt.mpr hmoved) e1
  simp only [runCell, e1, Out.ok_bind, Out.pure_eq, id_eq, Out.ok.injEq] at hc'
  subst hc'
  exact h.1

end Verif.PartitionUZ
