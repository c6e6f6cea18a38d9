import Verif.Mixing.ReactantSpec
import Verif.Mixing.SolutionLemmas

/-! # Lemmas on mixed reactants -/

namespace Verif.Mixing

open Verif.OMap Verif.NameDouble

theorem sumBy_nil {C : Type} (q : C → Bool) (A : C → ℚ) : sumBy q A [] = 0 := rfl

theorem sumBy_cons {C : Type} (q : C → Bool) (A : C → ℚ) (c : C) (l : List C) :
    sumBy q A (c :: l) = (if q c then A c else 0) + sumBy q A l := by
  unfold sumBy
  rw [List.filter_cons]
  cases q c <;> simp

/-- How one component behaves when added to or scaled. -/
structure Additive {C : Type} (same : C → C → Bool) (add : C → C → ℚ → C) (mul : C → ℚ → C)
    (q : C → Bool) (A : C → ℚ) (x : ℚ) (V : C → Prop) : Prop where
  name : ∀ c a, same c a = true → q c = q a
  add_q : ∀ c a, same c a = true → V a → q (add c a x) = q c
  add_A : ∀ c a, same c a = true → V a → A (add c a x) = A c + x * A a
  mul_q : ∀ a, q (mul a x) = q a
  mul_A : ∀ a, A (mul a x) = x * A a

theorem addComp_sum {C : Type} {same : C → C → Bool} {add : C → C → ℚ → C} {mul : C → ℚ → C}
    {q : C → Bool} {A : C → ℚ} {x : ℚ} {V : C → Prop} (h : Additive same add mul q A x V)
    (l : List C) (a : C) (ha : V a) :
    sumBy q A (addComp same add mul x l a) = sumBy q A l + x * (if q a then A a else 0) := by
  induction l with
  | nil =>
    simp only [addComp, sumBy_cons, sumBy_nil, h.mul_q, h.mul_A]
    cases q a <;> simp
  | cons c l ih =>
    simp only [addComp]
    by_cases e : same c a = true
    · rw [if_pos e, sumBy_cons, sumBy_cons, h.add_q c a e ha, h.add_A c a e ha, h.name c a e]
      cases q a <;> simp
      ring
    · rw [if_neg e, sumBy_cons, sumBy_cons, ih]
      ring

theorem addComps_sum {C : Type} {same : C → C → Bool} {add : C → C → ℚ → C} {mul : C → ℚ → C}
    {q : C → Bool} {A : C → ℚ} {x : ℚ} {V : C → Prop} (h : Additive same add mul q A x V)
    (addee : List C) : ∀ this : List C, (∀ a ∈ addee, V a) →
    sumBy q A (addComps same add mul this addee x) = sumBy q A this + x * sumBy q A addee := by
  unfold addComps
  induction addee with
  | nil => intro this _; simp [sumBy_nil]
  | cons a l ih =>
    intro this hV
    rw [List.foldl_cons, ih _ (fun b hb => hV b (List.mem_cons_of_mem _ hb)),
      addComp_sum h _ _ (hV a List.mem_cons_self), sumBy_cons]
    ring

theorem addComp_forall {C : Type} {same : C → C → Bool} {add : C → C → ℚ → C} {mul : C → ℚ → C}
    {x : ℚ} (V : C → Prop) (hadd : ∀ c a, V c → V a → V (add c a x))
    (hmul : ∀ a, V a → V (mul a x)) (l : List C) (a : C) (ha : V a) (hl : ∀ c ∈ l, V c) :
    ∀ c ∈ addComp same add mul x l a, V c := by
  induction l with
  | nil =>
    intro c hc
    simp only [addComp, List.mem_singleton] at hc
    rw [hc]; exact hmul a ha
  | cons b l ih =>
    intro c hc
    simp only [addComp] at hc
    split at hc
    · rcases List.mem_cons.mp hc with rfl | hc
      · exact hadd _ _ (hl _ List.mem_cons_self) ha
      · exact hl _ (List.mem_cons_of_mem _ hc)
    · rcases List.mem_cons.mp hc with rfl | hc
      · exact hl _ List.mem_cons_self
      · exact ih (fun d hd => hl _ (List.mem_cons_of_mem _ hd)) c hc

theorem addComps_forall {C : Type} {same : C → C → Bool} {add : C → C → ℚ → C} {mul : C → ℚ → C}
    {x : ℚ} (V : C → Prop) (hadd : ∀ c a, V c → V a → V (add c a x))
    (hmul : ∀ a, V a → V (mul a x)) (addee : List C) : ∀ this : List C, (∀ c ∈ this, V c) →
    (∀ a ∈ addee, V a) → ∀ c ∈ addComps same add mul this addee x, V c := by
  unfold addComps
  induction addee with
  | nil => intro this h _; exact h
  | cons a l ih =>
    intro this h hV
    rw [List.foldl_cons]
    exact ih _ (addComp_forall V hadd hmul _ _ (hV a List.mem_cons_self) h)
      (fun b hb => hV b (List.mem_cons_of_mem _ hb))

/-- Mixing with an invariant of the accumulated entity. -/
theorem mixWith_inv {E : Type} (add : E → E → ℚ → E) (I V : E → Prop)
    (hadd : ∀ s a x, I s → V a → I (add s a x)) (ents : Int → Option E)
    (hV : ∀ n e, ents n = some e → V e) (m : Mix) : ∀ init, I init → I (mixWith add init ents m) := by
  unfold mixWith
  induction m with
  | nil => intro init h; exact h
  | cons p m ih =>
    intro init h
    rw [List.foldl_cons]
    apply ih
    cases he : ents p.1 with
    | none => exact h
    | some e => exact hadd _ _ _ h (hV _ _ he)

theorem mixWith_sum {E : Type} (add : E → E → ℚ → E) (G : E → ℚ) (I V : E → Prop)
    (hadd : ∀ s a x, I s → V a → I (add s a x) ∧ G (add s a x) = G s + x * G a)
    (ents : Int → Option E) (hV : ∀ n e, ents n = some e → V e) (m : Mix) :
    ∀ init, I init → G (mixWith add init ents m) = G init + wsum G (parts ents m) := by
  unfold mixWith parts
  induction m with
  | nil => intro init _; simp [wsum_nil]
  | cons p m ih =>
    intro init h
    rw [List.foldl_cons, List.filterMap_cons]
    cases he : ents p.1 with
    | none =>
      simp only [Option.map_none]
      exact ih init h
    | some e =>
      simp only [Option.map_some]
      obtain ⟨h1, h2⟩ := hadd init e p.2 h (hV _ _ he)
      rw [ih _ h1, h2, wsum_cons]
      ring

/-! ## Named values -/

theorem val_addExtensive (m a : ND) (x : ℚ) (ha : Sorted a) (k : Name) :
    val (addExtensive m a x) k = val m k + x * val a k := by
  unfold addExtensive
  split
  · rename_i e; rw [e]; ring
  · exact val_foldl_addEntry _ _ _ ha k

theorem sorted_addExtensive {m : ND} (a : ND) (x : ℚ) (hm : Sorted m) :
    Sorted (addExtensive m a x) := by
  unfold addExtensive
  split
  · exact hm
  · induction a generalizing m with
    | nil => exact hm
    | cons p a ih => rw [List.foldl_cons]; exact ih (sorted_addEntry _ hm p)

theorem val_multiply (m : ND) (x : ℚ) (k : Name) : val (multiply m x) k = x * val m k := by
  induction m with
  | nil => simp [multiply, val, find]
  | cons p m ih =>
    obtain ⟨a, v⟩ := p
    simp only [multiply, List.map_cons] at ih ⊢
    rw [val_cons, val_cons, ih]
    split <;> ring

theorem sorted_multiply {m : ND} (x : ℚ) (hm : Sorted m) : Sorted (multiply m x) := by
  unfold multiply Sorted
  rw [List.pairwise_map]
  exact hm

/-! ## Single components -/

theorem exch_add (c a : ExchComp) {x : ℚ} (hx : x ≠ 0) (ha : a.formula ≠ [])
    (hc : a.formula = c.formula) :
    (c.add a x).formula = c.formula ∧ (c.add a x).totals = addExtensive c.totals a.totals x ∧
      (c.add a x).chargeBalance = c.chargeBalance + a.chargeBalance * x := by
  have hc' : c.formula ≠ [] := hc ▸ ha
  unfold ExchComp.add
  rw [if_neg hx, if_neg ha]
  simp only [if_neg hc']
  split
  · exact ⟨rfl, rfl, rfl⟩
  · split <;> split
    · exact ⟨rfl, rfl, rfl⟩
    · split <;> exact ⟨rfl, rfl, rfl⟩
    · exact ⟨rfl, rfl, rfl⟩
    · split <;> exact ⟨rfl, rfl, rfl⟩

theorem surf_add (c a : SurfComp) {x : ℚ} (hx : x ≠ 0) (ha : a.formula ≠ [])
    (hc : a.formula = c.formula) :
    (c.add a x).formula = c.formula ∧ (c.add a x).totals = addExtensive c.totals a.totals x ∧
      (c.add a x).chargeBalance = c.chargeBalance + a.chargeBalance * x ∧
      (c.add a x).moles = c.moles + a.moles * x := by
  have hc' : c.formula ≠ [] := hc ▸ ha
  unfold SurfComp.add
  rw [if_neg hx, if_neg ha]
  simp only [if_neg hc']
  split
  · exact ⟨rfl, rfl, rfl, rfl⟩
  · split <;> split
    · exact ⟨rfl, rfl, rfl, rfl⟩
    · split <;> exact ⟨rfl, rfl, rfl, rfl⟩
    · exact ⟨rfl, rfl, rfl, rfl⟩
    · split <;> exact ⟨rfl, rfl, rfl, rfl⟩

theorem charge_add (c a : SurfCharge) {x : ℚ} (hx : x ≠ 0) (ha : a.name ≠ []) :
    (c.add a x).name = c.name ∧ (c.add a x).diffuse = addExtensive c.diffuse a.diffuse x ∧
      (c.add a x).grams = c.grams + a.grams * x ∧
      (c.add a x).chargeBalance = c.chargeBalance + a.chargeBalance * x ∧
      (c.add a x).massWater = c.massWater + a.massWater * x := by
  unfold SurfCharge.add
  rw [if_neg hx, if_neg (fun h => ha h.2)]
  exact ⟨rfl, rfl, rfl, rfl, rfl⟩

/-! ## Sorted maps by name -/

theorem find?_name {m : SMap Name PPComp} (hk : ∀ q ∈ m, q.2.name = q.1) (n : Name) :
    m.find? (fun q => q.2.name = n) = (find m n).map (fun c => (n, c)) := by
  induction m with
  | nil => rfl
  | cons p m ih =>
    obtain ⟨a, c⟩ := p
    have h0 : c.name = a := hk (a, c) List.mem_cons_self
    rw [List.find?_cons]
    simp only [h0, find]
    by_cases e : n = a
    · subst e; simp
    · have : ¬ (a = n) := fun h => e h.symm
      simp only [this, decide_false, if_neg e]
      exact ih (fun q hq => hk q (List.mem_cons_of_mem _ hq))

theorem forall_insert {κ ν : Type} [LinearOrder κ] {m : SMap κ ν} (P : κ × ν → Prop)
    (hm : ∀ q ∈ m, P q) {k : κ} {v : ν} (hk : P (k, v)) : ∀ q ∈ OMap.insert m k v, P q := by
  induction m with
  | nil => intro q hq; simp [OMap.insert] at hq; rw [hq]; exact hk
  | cons p m ih =>
    obtain ⟨a, w⟩ := p
    intro q hq
    simp only [OMap.insert] at hq
    split at hq
    · rcases List.mem_cons.mp hq with rfl | hq
      · exact hk
      · exact hm q hq
    · split at hq
      · rcases List.mem_cons.mp hq with rfl | hq
        · exact hk
        · exact hm q (List.mem_cons_of_mem _ hq)
      · rcases List.mem_cons.mp hq with rfl | hq
        · exact hm _ List.mem_cons_self
        · exact ih (fun r hr => hm r (List.mem_cons_of_mem _ hr)) q hq

/-- The invariant of an equilibrium-phase assemblage under mixing: valid, and every phase has
the reaction formula given by `F`. -/
def PPInv (F : Name → Name) (e : PPAssemblage) : Prop :=
  e.Valid ∧ ∀ q ∈ e.comps, q.2.addFormula = F q.1

theorem pp_comp_add (c a : PPComp) {x : ℚ} (hx : x ≠ 0) (ha : a.name ≠ [])
    (hf : c.addFormula = a.addFormula) :
    (c.add a x).name = c.name ∧ (c.add a x).addFormula = c.addFormula ∧
      (c.add a x).moles = c.moles + a.moles * x ∧ (c.add a x).delta = c.delta + a.delta * x ∧
      (c.add a x).initialMoles = c.initialMoles + a.initialMoles * x := by
  unfold PPComp.add
  rw [if_neg hx, if_neg ha, if_neg (by simpa using hf)]
  exact ⟨rfl, rfl, rfl, rfl, rfl⟩

/-- The amounts a phase carries. -/
def ppAmounts : List (PPComp → ℚ) := [PPComp.moles, PPComp.delta, PPComp.initialMoles]

theorem pp_entries (F : Name → Name) {x : ℚ} (hx : x ≠ 0) (A : PPComp → ℚ) (hA : A ∈ ppAmounts)
    (l : SMap Name PPComp) (hl : Sorted l) (hk : ∀ q ∈ l, q.2.name = q.1 ∧ q.1 ≠ [] ∧
      q.2.addFormula = F q.1) : ∀ m : SMap Name PPComp, Sorted m →
      (∀ q ∈ m, q.2.name = q.1 ∧ q.1 ≠ [] ∧ q.2.addFormula = F q.1) →
      Sorted (l.foldl (PPAssemblage.addEntry x) m) ∧
      (∀ q ∈ l.foldl (PPAssemblage.addEntry x) m,
        q.2.name = q.1 ∧ q.1 ≠ [] ∧ q.2.addFormula = F q.1) ∧
      ∀ n, (find (l.foldl (PPAssemblage.addEntry x) m) n).elim 0 A =
        (find m n).elim 0 A + x * (find l n).elim 0 A := by
  induction l with
  | nil => intro m h1 h2; exact ⟨h1, h2, fun n => by simp [find]⟩
  | cons p l ih =>
    intro m h1 h2
    obtain ⟨a, c⟩ := p
    obtain ⟨hn, hne, hf⟩ := hk (a, c) List.mem_cons_self
    simp only at hn hne hf
    have hstep : ∃ d, PPAssemblage.addEntry x m (a, c) = OMap.insert m a d ∧ d.name = a ∧
        d.addFormula = F a ∧ A d = (find m a).elim 0 A + x * A c := by
      unfold PPAssemblage.addEntry
      rw [find?_name (fun q hq => (h2 q hq).1)]
      simp only [hn]
      cases hfa : find m a with
      | none =>
        refine ⟨c.mul x, rfl, hn, hf, ?_⟩
        simp only [ppAmounts, List.mem_cons, List.not_mem_nil, or_false] at hA
        rcases hA with rfl | rfl | rfl <;> simp [PPComp.mul] <;> ring
      | some d =>
        obtain ⟨d1, _, d3⟩ := h2 _ (mem_of_find hfa)
        simp only at d1 d3
        obtain ⟨e1, e2, e3, e4, e5⟩ := pp_comp_add d c hx (hn ▸ hne) (d3.trans hf.symm)
        refine ⟨d.add c x, rfl, e1.trans d1, e2.trans d3, ?_⟩
        simp only [ppAmounts, List.mem_cons, List.not_mem_nil, or_false] at hA
        rcases hA with rfl | rfl | rfl
        · rw [e3]; simp; ring
        · rw [e4]; simp; ring
        · rw [e5]; simp; ring
    obtain ⟨d, e0, e1, e2, e3⟩ := hstep
    rw [List.foldl_cons, e0]
    obtain ⟨i1, i2, i3⟩ := ih (List.pairwise_cons.mp hl).2
      (fun q hq => hk q (List.mem_cons_of_mem _ hq)) (OMap.insert m a d) (sorted_insert h1 _ _)
      (forall_insert _ h2 ⟨e1, hne, e2⟩)
    refine ⟨i1, i2, fun n => ?_⟩
    rw [i3 n, find_insert]
    simp only [find]
    by_cases e : n = a
    · subst e
      rw [if_pos rfl, if_pos rfl, sorted_head hl]
      simp [e3]
    · rw [if_neg e, if_neg e]

/-! ## Solid solutions -/

/-- The amounts a component of a solid solution carries. -/
def ssAmounts : List (SSComp → ℚ) := [SSComp.moles, SSComp.initialMoles, SSComp.delta]

theorem ss_additive (A : SSComp → ℚ) (hA : A ∈ ssAmounts) (n : Name) (x : ℚ) :
    Additive (fun c b => sameNocase c.name b.name) SSComp.add SSComp.mul
      (fun c => sameNocase c.name n) A x (fun _ => True) := by
  refine ⟨fun c a h => ?_, fun c a _ _ => rfl, fun c a _ _ => ?_, fun a => rfl, fun a => ?_⟩
  · simp only [sameNocase, decide_eq_true_eq] at h ⊢
    rw [h]
  · simp only [ssAmounts, List.mem_cons, List.not_mem_nil, or_false] at hA
    rcases hA with rfl | rfl | rfl <;> simp [SSComp.add] <;> ring
  · simp only [ssAmounts, List.mem_cons, List.not_mem_nil, or_false] at hA
    rcases hA with rfl | rfl | rfl <;> simp [SSComp.mul] <;> ring

theorem ss_add (A : SSComp → ℚ) (hA : A ∈ ssAmounts) (n : Name) (s a : SS) {x : ℚ} (hx : x ≠ 0)
    (ha : a.name ≠ []) :
    (s.add a x).name = s.name ∧
      ssCompAmount A n (s.add a x) = ssCompAmount A n s + x * ssCompAmount A n a := by
  unfold SS.add
  rw [if_neg hx, if_neg ha]
  exact ⟨rfl, addComps_sum (ss_additive A hA n x) _ _ (fun _ _ => trivial)⟩

theorem ss_mul (A : SSComp → ℚ) (hA : A ∈ ssAmounts) (n : Name) (a : SS) (x : ℚ) :
    ssCompAmount A n (a.mul x) = x * ssCompAmount A n a := by
  unfold ssCompAmount SS.mul
  simp only
  induction a.comps with
  | nil => simp [sumBy_nil]
  | cons c l ih =>
    rw [List.map_cons, sumBy_cons, sumBy_cons, ih]
    simp only [ssAmounts, List.mem_cons, List.not_mem_nil, or_false] at hA
    rcases hA with rfl | rfl | rfl <;> simp only <;> split <;> ring

theorem ss_entries {x : ℚ} (hx : x ≠ 0) (A : SSComp → ℚ) (hA : A ∈ ssAmounts) (nc : Name)
    (l : SSAssemblage) (hl : l.Valid) : ∀ m : SSAssemblage, m.Valid →
      SSAssemblage.Valid (l.foldl (SSAssemblage.addEntry x) m) ∧
      ∀ n, ssAmount A n nc (l.foldl (SSAssemblage.addEntry x) m) =
        ssAmount A n nc m + x * ssAmount A n nc l := by
  induction l with
  | nil => intro m h; exact ⟨h, fun n => by simp [ssAmount, find]⟩
  | cons p l ih =>
    intro m h
    obtain ⟨a, c⟩ := p
    have hn : c.name = a := hl.keyed (a, c) List.mem_cons_self
    have hne : a ≠ [] := hl.named (a, c) List.mem_cons_self
    have hstep : ∃ d, SSAssemblage.addEntry x m (a, c) = OMap.insert m a d ∧ d.name = a ∧
        ssCompAmount A nc d = ssAmount A a nc m + x * ssCompAmount A nc c := by
      unfold SSAssemblage.addEntry ssAmount
      simp only [hn]
      cases hfa : find m a with
      | none =>
        refine ⟨c.mul x, rfl, hn, ?_⟩
        rw [ss_mul A hA]; simp
      | some d =>
        have d1 : d.name = a := h.keyed _ (mem_of_find hfa)
        obtain ⟨e1, e2⟩ := ss_add A hA nc d c hx (hn ▸ hne)
        exact ⟨d.add c x, rfl, e1.trans d1, e2⟩
    obtain ⟨d, e0, e1, e2⟩ := hstep
    rw [List.foldl_cons, e0]
    obtain ⟨i1, i2⟩ := ih
      ⟨(List.pairwise_cons.mp hl.sorted).2, fun q hq => hl.keyed q (List.mem_cons_of_mem _ hq),
        fun q hq => hl.named q (List.mem_cons_of_mem _ hq)⟩ (OMap.insert m a d)
      ⟨sorted_insert h.sorted _ _, forall_insert _ h.keyed e1, forall_insert _ h.named hne⟩
    refine ⟨i1, fun n => ?_⟩
    rw [i2 n]
    unfold ssAmount at e2 ⊢
    rw [find_insert]
    simp only [find]
    by_cases e : n = a
    · subst e
      rw [if_pos rfl, if_pos rfl, sorted_head hl.sorted]
      simp [e2]
    · rw [if_neg e, if_neg e]

/-! ## Gas phases -/

/-- The amounts a gas component carries. -/
def gasAmounts : List (GasComp → ℚ) := [GasComp.moles, GasComp.initialMoles]

/-- Amount in the map of components. -/
def mapAmount (A : GasComp → ℚ) (n : Name) (m : SMap Name GasComp) : ℚ := (find m n).elim 0 A

theorem gas_entries (A : GasComp → ℚ) (hA : A ∈ gasAmounts) (x : ℚ) (l : List GasComp)
    (hl : ∀ c ∈ l, c.phaseName ≠ []) : ∀ m : SMap Name GasComp, Sorted m →
      (∀ q ∈ m, q.2.phaseName = q.1) →
      Sorted (l.foldl (GasPhase.addEntry x) m) ∧
      (∀ q ∈ l.foldl (GasPhase.addEntry x) m, q.2.phaseName = q.1) ∧
      ∀ n, mapAmount A n (l.foldl (GasPhase.addEntry x) m) =
        mapAmount A n m + x * sumBy (fun c => c.phaseName = n) A l := by
  induction l with
  | nil => intro m h1 h2; exact ⟨h1, h2, fun n => by simp [sumBy_nil]⟩
  | cons a l ih =>
    intro m h1 h2
    have hne := hl a List.mem_cons_self
    have hstep : ∃ d, GasPhase.addEntry x m a = OMap.insert m a.phaseName d ∧
        d.phaseName = a.phaseName ∧ A d = mapAmount A a.phaseName m + x * A a := by
      unfold GasPhase.addEntry mapAmount
      cases hf : find m a.phaseName with
      | none =>
        refine ⟨a.mul x, rfl, rfl, ?_⟩
        simp only [gasAmounts, List.mem_cons, List.not_mem_nil, or_false] at hA
        rcases hA with rfl | rfl <;> simp [GasComp.mul] <;> ring
      | some d =>
        have d1 : d.phaseName = a.phaseName := h2 _ (mem_of_find hf)
        refine ⟨d.add a x, rfl, ?_, ?_⟩
        · unfold GasComp.add
          split
          · exact d1
          · exact d1
        · unfold GasComp.add
          split
          · rename_i e; rw [e]; simp
          · simp only [gasAmounts, List.mem_cons, List.not_mem_nil, or_false] at hA
            rcases hA with rfl | rfl <;> simp <;> ring
    obtain ⟨d, e0, e1, e2⟩ := hstep
    rw [List.foldl_cons, e0]
    obtain ⟨i1, i2, i3⟩ := ih (fun c hc => hl c (List.mem_cons_of_mem _ hc))
      (OMap.insert m a.phaseName d) (sorted_insert h1 _ _)
      (forall_insert (fun q : Name × GasComp => q.2.phaseName = q.1) h2 e1)
    refine ⟨i1, i2, fun n => ?_⟩
    rw [i3 n, sumBy_cons]
    unfold mapAmount at e2 ⊢
    rw [find_insert]
    by_cases e : n = a.phaseName
    · rw [if_pos e, e, Option.elim_some, e2]; simp; ring
    · have e' : ¬ (a.phaseName = n) := fun h => e h.symm
      rw [if_neg e]; simp [e']

theorem map_sum (A : GasComp → ℚ) (m : SMap Name GasComp) (hs : Sorted m)
    (hk : ∀ q ∈ m, q.2.phaseName = q.1) (n : Name) :
    sumBy (fun c => c.phaseName = n) A (m.map Prod.snd) = mapAmount A n m := by
  unfold mapAmount
  induction m with
  | nil => rfl
  | cons p m ih =>
    obtain ⟨a, c⟩ := p
    have hn : c.phaseName = a := hk (a, c) List.mem_cons_self
    rw [List.map_cons, sumBy_cons, ih (List.pairwise_cons.mp hs).2
      (fun q hq => hk q (List.mem_cons_of_mem _ hq))]
    simp only [hn, find]
    by_cases e : n = a
    · subst e; rw [sorted_head hs]; simp
    · have e' : ¬ (a = n) := fun h => e h.symm
      simp [e, e']

theorem gas_loop (A : GasComp → ℚ) (hA : A ∈ gasAmounts) (T : GasType)
    (ents : Int → Option GasPhase) (hV : ∀ n e, ents n = some e → e.Valid ∧ e.type = T) (sum : ℚ)
    (m : Mix) : ∀ (g : GasPhase) (first : Bool) (cm : SMap Name GasComp),
      (first = false → g.type = T) → (first = true → g.totalMoles = 0 ∧ g.volume = 0) →
      Sorted cm → (∀ q ∈ cm, q.2.phaseName = q.1) →
      (∀ n, gasAmount A n (GasPhase.loop ents sum m g first cm) =
        mapAmount A n cm + wsum (gasAmount A n) (parts ents m)) ∧
      (GasPhase.loop ents sum m g first cm).totalMoles =
        g.totalMoles + wsum GasPhase.totalMoles (parts ents m) ∧
      (GasPhase.loop ents sum m g first cm).volume =
        g.volume + wsum GasPhase.volume (parts ents m) := by
  induction m with
  | nil =>
    intro g first cm _ _ hs hk
    refine ⟨fun n => ?_, ?_, ?_⟩
    · simp only [GasPhase.loop, gasAmount, parts, List.filterMap_nil, wsum_nil]
      rw [map_sum A cm hs hk]; simp
    · simp [GasPhase.loop, parts, wsum_nil]
    · simp [GasPhase.loop, parts, wsum_nil]
  | cons p m ih =>
    intro g first cm hT hF hs hk
    simp only [GasPhase.loop]
    cases he : ents p.1 with
    | none =>
      have : parts ents (p :: m) = parts ents m := by simp [parts, he]
      rw [this]
      exact ih g first cm hT hF hs hk
    | some e =>
      have hp : parts ents (p :: m) = (e, p.2) :: parts ents m := by simp [parts, he]
      obtain ⟨hv, ht⟩ := hV _ _ he
      obtain ⟨c1, c2, c3⟩ := gas_entries A hA p.2 e.comps hv cm hs hk
      simp only [hp, wsum_cons]
      cases first with
      | true =>
        simp only [if_true]
        obtain ⟨i1, i2, i3⟩ := ih
          { g with type := e.type
                   totalMoles := e.totalMoles * p.2
                   volume := e.volume * p.2
                   vm := if sum > 0 then e.vm * p.2 / sum else 0
                   totalP := if sum > 0 then g.totalP + e.totalP * p.2 / sum else 0
                   temperature := e.temperature } false _ (fun _ => ht) (by simp) c1 c2
        obtain ⟨z1, z2⟩ := hF rfl
        refine ⟨fun n => ?_, ?_, ?_⟩
        · rw [i1 n, c3 n]; unfold gasAmount; ring
        · rw [i2, z1]; simp only; ring
        · rw [i3, z2]; simp only; ring
      | false =>
        have hne : ¬ (g.type ≠ e.type) := by rw [hT rfl, ht]; simp
        simp only [Bool.false_eq_true, if_false, hne]
        obtain ⟨i1, i2, i3⟩ := ih
          { g with totalMoles := g.totalMoles + e.totalMoles * p.2
                   volume := g.volume + e.volume * p.2
                   vm := if sum > 0 then g.vm + e.vm * p.2 / sum else g.vm
                   totalP := if sum > 0 then g.totalP + e.totalP * p.2 / sum
                     else g.totalP } false _ (fun _ => hT rfl) (by simp) c1 c2
        refine ⟨fun n => ?_, ?_, ?_⟩
        · rw [i1 n, c3 n]; unfold gasAmount; ring
        · rw [i2]; simp only; ring
        · rw [i3]; simp only; ring

end Verif.Mixing
