import Verif.Reaction.Phases
import Mathlib.Algebra.Order.Ring.Abs

/-!
# C171 and C172: reactions in terms of master species
-/

namespace Verif.Reaction

open Verif.Equation (strLe)

/-- **C171** (species that are not master species). If the rewriting ends without error, the reaction
that is kept has the same first species, no species twice, no species that is not a master species unless
its coefficient is at most 10⁻⁵, and with at most `10 M + 2` lost terms of at most 10⁻⁵ put back it obeys
everything that the equations of the data base obey: elements, charge, mass action. `M` is the length of
the longest equation. It does not depend on what was left in the array.

Partial: a bound for the lost terms and not equality, see `small_term_violation`; equations with a single
species are left out, see `lone_species_violation`; when it ends without error is said in
`species_accepted`, see also `twenty_species_violation`. -/
theorem species_rewritten_partial {sort : List Tok → List Tok} (hs : Sorts sort) {db : Db}
    (hdb : ∀ n, ∀ u ∈ (db.rxn n).toks, u.sp = true) {M : Nat} (hM : ∀ n, (db.rxn n).toks.length ≤ M)
    {n : Name} (hn : db.plain n = true) (h2 : 2 ≤ (db.rxn n).toks.length) {t t' : Trxn}
    (h : speciesRxn sort db n t = .ok t') :
    NearlyObeys (Law db) (10 * M + 2) (copy t') ∧
      t'.live.head? = (db.rxn n).toks.head? ∧
      (∀ u ∈ t'.live.tail, (u.sp = true ∧ (db.primary u.name = true ∨ db.secondary u.name = true)) ∨
        |u.coef| ≤ tol) ∧
      (t'.live.tail.map (·.name)).Nodup := by
  unfold speciesRxn at h
  rw [if_neg (by rw [hn]; simp)] at h
  cases ha : add (db.rxn n) 1 (clear t) with
  | err => rw [ha] at h; cases h
  | ub => rw [ha] at h; cases h
  | ok t1 =>
    rw [ha] at h
    unfold Res.bind at h
    dsimp only at h
    obtain ⟨e1, e2, e3⟩ := add_first (hdb n) ha
    have hg : Good (fun _ => True) t1 := good_first e1 h2 (fun _ _ => trivial)
    obtain ⟨s1, s2, s3⟩ := step_rewrite closed_true (fun _ _ _ _ => trivial) hs
      (fun n u hu => ⟨hdb n u hu, trivial⟩) hM (by intro a h; cases h) hg h
    refine ⟨?_, ?_, ?_, ?_⟩
    · refine nearly s1 ?_ ?_
      · intro w κ hp
        unfold val
        rw [e1, e2]
        exact hp n
      · rw [e1]
        have := hM n
        omega
    · rw [s1.2.2, e1]
    · intro u hu
      rcases s2 u hu with ⟨h1, h2⟩ | h1
      · refine Or.inl ⟨h1, ?_⟩
        unfold Db.plain at h2
        cases hp : db.primary u.name <;> cases hq : db.secondary u.name <;> simp_all
      · exact Or.inr ((small_iff _).mp h1)
    · rw [List.Nodup, List.pairwise_map]
      exact s3.imp (fun h => h.2)

/-- **C171** (nothing to replace). A species whose equation has only master species behind it, primary or secondary, keeps its
constant and gets no other species: a secondary master species is not replaced by its primary one. -/
theorem masters_stay {sort : List Tok → List Tok} (hs : Sorts sort) {db : Db}
    (hdb : ∀ n, ∀ u ∈ (db.rxn n).toks, u.sp = true) {n : Name} (hn : db.primary n = false ∧ db.secondary n = false)
    (h2 : 2 ≤ (db.rxn n).toks.length)
    (hm : ∀ u ∈ (db.rxn n).toks.tail, db.primary u.name = true ∨ db.secondary u.name = true) {t t' : Trxn}
    (h : speciesRxn sort db n t = .ok t') :
    t'.logk = (db.rxn n).logk ∧ ∀ u ∈ t'.live.tail, ∃ v ∈ (db.rxn n).toks.tail, v.name = u.name := by
  unfold speciesRxn at h
  rw [if_neg (by simp [Db.plain, hn])] at h
  cases ha : add (db.rxn n) 1 (clear t) with
  | err => rw [ha] at h; cases h
  | ub => rw [ha] at h; cases h
  | ok t1 =>
    rw [ha] at h
    unfold Res.bind at h
    dsimp only at h
    obtain ⟨e1, e2, e3⟩ := add_first (hdb n) ha
    have hg : Good (fun _ => True) t1 := good_first e1 h2 (fun _ _ => trivial)
    unfold rewriteSecondary maxAdd at h
    rw [subst, List.find?_eq_none.mpr] at h
    · simp only [Res.bind] at h
      have h3 := combine_keeps closed_true hs h hg.q hg.settled
      obtain ⟨D, _, _, _, _, _, h4⟩ := combine_near closed_true hs h hg.q hg.settled
      refine ⟨by rw [h4, e2], fun u hu => ?_⟩
      obtain ⟨v, hv, _, hv2⟩ := h3.2.2.2.1 (by rw [e1]; exact h2) u hu
      exact ⟨v, by rw [← e1]; exact hv, hv2⟩
    · intro u hu
      rw [e1] at hu
      have h5 := hdb n u (List.mem_of_mem_tail hu)
      rcases hm u hu with h6 | h6 <;> simp [h5, Db.plain, h6]

theorem discrete_int : Discrete (Multiple 1) := by
  rintro x ⟨z, rfl⟩ h
  rw [mul_one] at h ⊢
  have h1 : |(z : ℚ)| < 1 := lt_of_le_of_lt h (by unfold tol; norm_num)
  have h2 : |z| < 1 := by exact_mod_cast h1
  have : z = 0 := Int.abs_lt_one_iff.mp h2
  simp [this]

theorem closed_multiple (δ : ℚ) : Closed (Multiple δ) :=
  ⟨by rintro _ _ ⟨a, rfl⟩ ⟨b, rfl⟩; exact ⟨a + b, by push_cast; ring⟩,
   by rintro _ ⟨a, rfl⟩; exact ⟨-a, by push_cast; ring⟩⟩

theorem mul_int : MulClosed (Multiple 1) := by
  rintro _ _ ⟨a, rfl⟩ ⟨b, rfl⟩
  exact ⟨a * b, by push_cast; ring⟩

/-- **C171** (whole numbers). If all coefficients of the data base are whole numbers, the rewritten
reaction obeys exactly what the equations obey, and no species but master species take part. -/
theorem species_exact {sort : List Tok → List Tok} (hs : Sorts sort) {db : Db}
    (hdb : ∀ n, ∀ u ∈ (db.rxn n).toks, u.sp = true ∧ ∃ z : ℤ, u.coef = z) {M : Nat}
    (hM : ∀ n, (db.rxn n).toks.length ≤ M) {n : Name} (hn : db.plain n = true)
    (h2 : 2 ≤ (db.rxn n).toks.length) {t t' : Trxn} (h : speciesRxn sort db n t = .ok t') :
    (∀ w κ, Law db w κ → Obeys w κ (copy t')) ∧
      ∀ u ∈ t'.live.tail, db.primary u.name = true ∨ db.secondary u.name = true ∨ u.coef = 0 := by
  have hdb' : ∀ n, ∀ u ∈ (db.rxn n).toks, u.sp = true ∧ Multiple 1 u.coef := by
    intro n u hu
    obtain ⟨h1, z, hz⟩ := hdb n u hu
    exact ⟨h1, z, by rw [hz, mul_one]⟩
  unfold speciesRxn at h
  rw [if_neg (by rw [hn]; simp)] at h
  cases ha : add (db.rxn n) 1 (clear t) with
  | err => rw [ha] at h; cases h
  | ub => rw [ha] at h; cases h
  | ok t1 =>
    rw [ha] at h
    unfold Res.bind at h
    dsimp only at h
    obtain ⟨e1, e2, e3⟩ := add_first (fun u hu => (hdb n u hu).1) ha
    have hg : Good (Multiple 1) t1 := good_first e1 h2 (fun u hu => (hdb' n u hu).2)
    obtain ⟨s1, s2, s3⟩ := step_rewrite (closed_multiple 1) mul_int hs hdb' hM (by intro a h; cases h) hg h
    refine ⟨?_, ?_⟩
    · intro w κ hp
      have := exactly discrete_int s1 hp
      unfold Obeys copy
      unfold val at this
      dsimp only
      rw [this, e1, e2]
      exact hp n
    · intro u hu
      rcases s2 u hu with ⟨h1, h2⟩ | h1
      · unfold Db.plain at h2
        cases hp : db.primary u.name <;> cases hq : db.secondary u.name <;> simp_all
      · exact Or.inr (Or.inr (discrete_int _ (s1.2.1.q u (List.mem_of_mem_tail hu)) ((small_iff _).mp h1)))

/-- **C171** (master species). If the coefficients of its equation are multiples of a number greater than
10⁻⁵ and none is zero, the reaction of a master species is the identity: the species with its coefficient
and the same species with the opposite coefficient, and the constant is zero. -/
theorem master_identity {sort : List Tok → List Tok} (hs : Sorts sort) {db : Db} {n : Name}
    (hn : db.plain n = false) {δ : ℚ} (hδ : tol < δ) {a : Tok} {l : List Tok}
    (ha : (db.rxn n).toks = a :: l)
    (hdb : ∀ u ∈ (db.rxn n).toks, u.sp = true ∧ u.coef ≠ 0 ∧ Multiple δ u.coef) {t t' : Trxn}
    (h : speciesRxn sort db n t = .ok t') :
    copy t' = ⟨[a, { a with coef := -a.coef }], 0⟩ := by
  have hδ0 : 0 < δ := lt_trans (by unfold tol; norm_num) hδ
  have hd : Discrete (Multiple δ) := by
    rintro x ⟨z, rfl⟩ hx
    rw [abs_mul, abs_of_pos hδ0] at hx
    have h1 : |(z : ℚ)| < 1 := by
      by_contra hc
      have : 1 * δ ≤ |(z : ℚ)| * δ := mul_le_mul_of_nonneg_right (not_lt.mp hc) hδ0.le
      linarith
    have h2 : |z| < 1 := by exact_mod_cast h1
    have : z = 0 := Int.abs_lt_one_iff.mp h2
    simp [this]
  unfold speciesRxn at h
  rw [if_pos hn] at h
  obtain ⟨⟨D, d1, d2, d3, d4⟩, e2, e3, e4, e5, e6⟩ := twice (closed_multiple δ) hs
    (fun u hu => ⟨(hdb u hu).1, (hdb u hu).2.2⟩) h
  have hD : ∀ w, tot w D = 0 := by
    intro w
    unfold tot
    apply List.sum_eq_zero
    intro x hx
    obtain ⟨d, hd1, rfl⟩ := List.mem_map.mp hx
    rw [hd _ (d3 d hd1) (d2 d hd1), zero_mul]
  have hzero : ∀ w, tot w t'.live = 0 := by
    intro w
    have := d4 w
    rw [tot_append, hD w, add_zero] at this
    exact this
  rw [ha] at e3
  obtain ⟨m, hm⟩ : ∃ m, t'.live = a :: m := by
    cases hl : t'.live with
    | nil => rw [hl] at e3; cases e3
    | cons x m => rw [hl] at e3; cases e3; exact ⟨m, rfl⟩
  rw [hm] at hzero e4 e5 e6
  have hlarge := e4 (fun u hu => by
    cases hc : small u.coef with
    | false => rfl
    | true => exact absurd (hd _ (hdb u hu).2.2 ((small_iff _).mp hc)) (hdb u hu).2.1)
  have hasp : a.sp = true := (hdb a (by rw [ha]; simp)).1
  -- the coefficient of one name
  have hone : ∀ (m : List Tok) (x : Name), m.Pairwise (fun u v => strLe u.name v.name = true ∧ u.name ≠ v.name) →
      ∀ u ∈ m, u.name = x → tot (fun _ y => if y = x then 1 else 0) m = u.coef := by
    intro m x
    induction m with
    | nil => intro _ u hu; cases hu
    | cons v m ih =>
      intro hp u hu he
      rw [List.pairwise_cons] at hp
      rw [tot_cons]
      rcases List.mem_cons.mp hu with rfl | hu
      · have : tot (fun _ y => if y = x then 1 else 0) m = 0 := by
          unfold tot
          apply List.sum_eq_zero
          intro z hz
          obtain ⟨d, hd1, rfl⟩ := List.mem_map.mp hz
          have := (hp.1 d hd1).2
          rw [he] at this
          dsimp only
          rw [if_neg (fun e => this e.symm), mul_zero]
        rw [this, if_pos he]; ring
      · have := (hp.1 u hu).2
        rw [he] at this
        rw [if_neg this, ih hp.2 u hu he]; ring
  have hnames : ∀ u ∈ m, u.name = a.name := by
    intro u hu
    by_contra hne
    have h0 := hzero (fun _ y => if y = u.name then 1 else 0)
    rw [tot_cons, if_neg (fun e => hne e.symm), hone m u.name e6 u hu rfl] at h0
    have : u.coef = 0 := by linarith
    have hl := hlarge u hu
    rw [this] at hl
    simp [small] at hl
  have hcopy : copy t' = ⟨a :: m, 0⟩ := by unfold copy; rw [hm, e2]
  rw [hcopy]
  cases hmm : m with
  | nil =>
    exfalso
    have h0 := hzero (fun _ _ => 1)
    rw [hmm, tot_cons] at h0
    have h1 := (hdb a (by rw [ha]; simp)).2.1
    simp [tot] at h0
    exact h1 h0
  | cons u m2 =>
    cases m2 with
    | nil =>
      have h0 := hzero (fun _ _ => 1)
      rw [hmm, tot_cons, tot_cons] at h0
      have hc : u.coef = -a.coef := by
        simp [tot] at h0
        linarith
      have hn := hnames u (by rw [hmm]; simp)
      have hsp := (e5 u (by rw [hmm]; simp)).1
      congr 2
      cases u
      simp_all
    | cons v m3 =>
      exfalso
      rw [hmm, List.tail_cons, List.pairwise_cons] at e6
      have := (e6.1 v (by simp)).2
      exact this (by rw [hnames u (by rw [hmm]; simp), hnames v (by rw [hmm]; simp)])

/-- **C172.** The reaction of a phase: if the rewriting ends without error, the first entry is that of the
equation, no species occurs twice behind it, all but those with coefficients of at most 10⁻⁵ are master
species, and with at most `30 M + 5` lost terms of at most 10⁻⁵ put back it obeys what the equations of
the phases obey (with the constants of dissociation reactions) and those of the species (with the constants
of association reactions). The equations of the phases that are put in have the coefficient −1 for the
phase, which the test that they balance asks for; see `two_formula_units_violation`. -/
theorem phase_rewritten_partial {sort : List Tok → List Tok} (hs : Sorts sort) {db : Db}
    (hdb : ∀ n, ∀ u ∈ (db.rxn n).toks, u.sp = true)
    (hph : ∀ n r, db.phase n = some r → ∀ h, r.toks.head? = some h → h.coef = -1) {M : Nat}
    (hM : ∀ n, (db.rxn n).toks.length ≤ M) (hM' : ∀ n r, db.phase n = some r → r.toks.length ≤ M)
    {r : Rxn} (hr : r.toks.length ≤ M) (h2 : 2 ≤ r.toks.length) {t t' : Trxn}
    (h : phaseRxn sort db r t = .ok t') :
    NearlyObeys (fun w κ => Obeys w κ r ∧ PhaseLaw db w κ ∧ Law db w (-κ)) (30 * M + 5) (copy t') ∧
      t'.live.head? = r.toks.head? ∧
      (∀ u ∈ t'.live.tail, (u.sp = true ∧ (db.primary u.name = true ∨ db.secondary u.name = true)) ∨
        |u.coef| ≤ tol) ∧
      (t'.live.tail.map (·.name)).Nodup := by
  unfold phaseRxn at h
  cases ha : addPhase r 1 (clear t) with
  | err => rw [ha] at h; cases h
  | ub => rw [ha] at h; cases h
  | ok t1 =>
    rw [ha] at h
    unfold Res.bind at h
    dsimp only at h
    obtain ⟨e1, e2, e3⟩ := addPhase_first ha
    have hg : Good (fun _ => True) t1 := good_first e1 h2 (fun _ _ => trivial)
    cases hb : replaceSolids sort db t1 with
    | err => rw [hb] at h; cases h
    | ub => rw [hb] at h; cases h
    | ok t2 =>
      rw [hb] at h
      dsimp only at h
      have s1 := step_solids closed_true (fun _ _ _ _ => trivial) hs
        (fun n r h => ⟨fun _ _ => trivial, hph n r h⟩) hM' hg hb
      cases hc : rewriteSecondary sort db (reverseK t2) with
      | err => rw [hc] at h; cases h
      | ub => rw [hc] at h; cases h
      | ok t3 =>
        rw [hc] at h
        dsimp only at h
        cases h
        obtain ⟨s2, s3, s4⟩ := step_rewrite closed_true (fun _ _ _ _ => trivial) hs
          (fun n u hu => ⟨hdb n u hu, trivial⟩) hM (by intro a h; cases h) (good_reverse s1.2.1) hc
        have s5 := step_reverse s2
        have s6 := (s1.mono (P' := fun w κ => Obeys w κ r ∧ PhaseLaw db w κ ∧ Law db w (-κ))
          (fun _ _ h => h.2.1) (le_refl _)).trans (s5.mono (fun _ _ h => h.2.2) (le_refl _))
        refine ⟨?_, ?_, ?_, ?_⟩
        · refine nearly s6 ?_ ?_
          · intro w κ hp
            unfold val
            rw [e1, e2]
            exact hp.1
          · rw [e1]
            omega
        · rw [s6.2.2, e1]
        · intro u hu
          rcases s3 u hu with ⟨h1, h2⟩ | h1
          · refine Or.inl ⟨h1, ?_⟩
            unfold Db.plain at h2
            cases hp : db.primary u.name <;> cases hq : db.secondary u.name <;> simp_all
          · exact Or.inr ((small_iff _).mp h1)
        · rw [List.Nodup, List.pairwise_map]
          exact s4.imp (fun h => h.2)

/-! ### Cases -/

/-- A function that sorts. -/
def isort (l : List Tok) : List Tok := l.insertionSort (fun u v => strLe u.name v.name = true)

theorem isort_sorts : Sorts isort := by
  intro l
  refine ⟨List.perm_insertionSort _ l, ?_⟩
  haveI : Std.Total (fun u v : Tok => strLe u.name v.name = true) :=
    ⟨fun u v => Verif.Equation.strLe_total u.name v.name⟩
  haveI : IsTrans Tok (fun u v : Tok => strLe u.name v.name = true) :=
    ⟨fun u v x => Verif.Equation.strLe_trans u.name v.name x.name⟩
  exact List.pairwise_insertionSort _ l

/-- An entry with a species. -/
def sp (n : String) (c : ℚ) : Tok := ⟨n.toList, true, c⟩

/-- An entry without species. -/
def solid (n : String) (c : ℚ) : Tok := ⟨n.toList, false, c⟩

/-- A data base from a list of equations and a list of master species; master species have the equation of
the identity. -/
def mkDb (eqs : List (String × Rxn)) (masters : List String) (phases : List (String × Rxn)) : Db where
  rxn n := match eqs.find? (fun e => e.1.toList == n) with
    | some e => e.2
    | none => if masters.any (fun m => m.toList == n) then ⟨[⟨n, true, -1⟩, ⟨n, true, 1⟩], 0⟩ else ⟨[], 0⟩
  primary n := masters.any (fun m => m.toList == n)
  secondary _ := false
  phase n := (phases.find? (fun e => e.1.toList == n)).map (·.2)

/-- The result, if there is one. -/
def Res.rxn : Res Trxn → Option Rxn
  | .ok t => some (copy t)
  | _ => none

/-- Carbon dioxide by way of bicarbonate: CO3-2 + H+ = HCO3-, HCO3- + H+ = CO2 + H2O. -/
def carbon : Db := mkDb
  [("HCO3-", ⟨[sp "HCO3-" (-1), sp "CO3-2" 1, sp "H+" 1], 103 / 10⟩),
   ("CO2", ⟨[sp "CO2" (-1), sp "HCO3-" 1, sp "H+" 1, sp "H2O" (-1)], 64 / 10⟩)]
  ["CO3-2", "H+", "H2O", "Na+", "Ca+2"]
  [("CO2(g)", ⟨[solid "CO2(g)" (-1), sp "CO2" 1], -147 / 100⟩),
   ("Calcite", ⟨[solid "Calcite" (-1), sp "Ca+2" 1, sp "CO3-2" 1], -848 / 100⟩)]

/-- The reaction of carbon dioxide is CO3-2 + 2 H+ = CO2 + H2O with log K 16.7, whatever was in the array
before. -/
theorem carbon_case : (∀ t, t ∈ [(⟨[], [], 0⟩ : Trxn), ⟨[sp "Na+" 1], [sp "K+" 5, sp "Cl-" 7], 3⟩] →
    (speciesRxn isort carbon "CO2".toList t).rxn =
      some ⟨[sp "CO2" (-1), sp "CO3-2" 1, sp "H+" 2, sp "H2O" (-1)], 167 / 10⟩) ∧
    carbon.plain "CO2".toList = true ∧ 2 ≤ (carbon.rxn "CO2".toList).toks.length := by
  refine ⟨?_, by decide +kernel, by decide +kernel⟩
  intro t ht
  simp only [List.mem_cons, List.not_mem_nil, or_false] at ht
  rcases ht with rfl | rfl <;> decide +kernel

/-- A phase that is written with a gas: the constants of the gas, of carbon dioxide and of bicarbonate are
put together with the right signs. -/
theorem gas_case : (phaseRxn isort carbon
      ⟨[solid "Soda" (-1), sp "Na+" 1, solid "CO2(g)" 1, sp "H2O" 1, sp "H+" (-1)], 1⟩ ⟨[], [], 0⟩).rxn =
    some ⟨[solid "Soda" (-1), sp "CO3-2" 1, sp "H+" 1, sp "Na+" 1], 1 - 147 / 100 - 167 / 10⟩ := by
  decide +kernel

/-- The weights of a few species; all others weigh nothing. -/
def weights (l : List (String × ℚ)) : Weight := fun _ n =>
  match l.find? (fun e => e.1.toList == n) with
  | some e => e.2
  | none => 0

/-- A = B + M + N and B = −0.999995 M. -/
def smallDb : Db := mkDb
  [("A", ⟨[sp "A" (-1), sp "B" 1, sp "M" 1, sp "N" 1], 0⟩), ("B", ⟨[sp "B" (-1), sp "M" (-999995 / 1000000)], 0⟩)]
  ["M", "N"] []

/-- **C171 is violated** (lost terms). A term whose coefficient becomes 5·10⁻⁶ is taken out and the
reaction no longer balances although all equations do. -/
theorem small_term_violation :
    (speciesRxn isort smallDb "A".toList ⟨[], [], 0⟩).rxn = some ⟨[sp "A" (-1), sp "N" 1], 0⟩ ∧
    (∀ n, Obeys (weights [("M", 1), ("B", -999995 / 1000000), ("A", 5 / 1000000)]) 0 (smallDb.rxn n)) ∧
    ¬ Obeys (weights [("M", 1), ("B", -999995 / 1000000), ("A", 5 / 1000000)]) 0
      ⟨[sp "A" (-1), sp "N" 1], 0⟩ := by
  refine ⟨by decide +kernel, ?_, by unfold Obeys; decide +kernel⟩
  intro n
  have hm : ∀ m : Name, Obeys (weights [("M", 1), ("B", -999995 / 1000000), ("A", 5 / 1000000)]) 0
      ⟨[⟨m, true, -1⟩, ⟨m, true, 1⟩], 0⟩ := by
    intro m
    unfold Obeys tot
    simp
  simp only [smallDb, mkDb]
  split
  · rename_i e he
    have := List.mem_of_find?_eq_some he
    simp only [List.mem_cons, List.not_mem_nil, or_false] at this
    rcases this with rfl | rfl <;> (unfold Obeys; decide +kernel)
  · split
    · exact hm n
    · simp [Obeys, tot]

/-- `= A`: one species and nothing else, kept without test with `-no_check`. -/
def loneDb : Db := mkDb [("A", ⟨[sp "A" (-1)], 0⟩)] ["M"] []

/-- **C171 is violated** (a single species). The reaction takes in the entry that another reaction has left
in the array; if there is none, memory outside the array is used. -/
theorem lone_species_violation :
    (speciesRxn isort loneDb "A".toList ⟨[sp "Na+" (-1), sp "Cl-" 3], [], 0⟩).rxn =
      some ⟨[sp "A" (-1), sp "Cl-" 3], 0⟩ ∧
    (speciesRxn isort loneDb "A".toList ⟨[sp "K+" (-1), sp "Br-" 7], [], 0⟩).rxn =
      some ⟨[sp "A" (-1), sp "Br-" 7], 0⟩ ∧
    speciesRxn isort loneDb "A".toList ⟨[], [], 0⟩ = .ub := by
  refine ⟨by decide +kernel, by decide +kernel, by decide +kernel⟩

/-- A = B − B and B = A0. -/
def cancelDb : Db := mkDb
  [("A", ⟨[sp "A" (-1), sp "B" 1, sp "B" (-1)], 0⟩), ("B", ⟨[sp "B" (-1), sp "A0" 1], 0⟩)] ["A0"] []

/-- **C171 is violated** (all species cancel). `trxn_combine` counts two entries whenever it starts with one,
so a species that is not a master species comes back with coefficient zero. `calc_alk`
(utilities.cpp:19-49) then reports a species that is not a master species. -/
theorem cancelled_species_violation :
    (speciesRxn isort cancelDb "A".toList ⟨[], [], 0⟩).rxn = some ⟨[sp "A" (-1), sp "B" 0], 0⟩ ∧
    cancelDb.plain "B".toList = true := by
  refine ⟨by decide +kernel, by decide +kernel⟩

/-- A is the sum of the given species, and each of these is the master species M. -/
def manyDb (l : List String) : Db := mkDb
  (("A", ⟨sp "A" (-1) :: l.map (sp · 1), 0⟩) :: l.map fun b => (b, ⟨[sp b (-1), sp "M" 1], 0⟩)) ["M"] []

/-- **C171 is violated** (length). Every replacement takes one of twenty turns: an equation with nineteen
species that need one replacement each is rewritten, with twenty it is refused. -/
theorem twenty_species_violation :
    (speciesRxn isort (manyDb ["B", "C", "D", "E", "F", "G", "H", "I", "J", "K", "L", "N", "O", "P", "Q",
      "R", "S", "T", "U"]) "A".toList ⟨[], [], 0⟩).rxn = some ⟨[sp "A" (-1), sp "M" 19], 0⟩ ∧
    speciesRxn isort (manyDb ["B", "C", "D", "E", "F", "G", "H", "I", "J", "K", "L", "N", "O", "P", "Q",
      "R", "S", "T", "U", "V"]) "A".toList ⟨[], [], 0⟩ = .err := by
  refine ⟨by decide +kernel, by decide +kernel⟩

/-- X is written with two formula units, 2 X = M, and kept with `-no_check`. -/
def unitsDb : Db := mkDb [] ["M", "N"] [("X", ⟨[solid "X" (-2), sp "M" 1], 0⟩)]

/-- **C172 is violated** (leading coefficient). For Y = X + N with 2 X = M the program finds Y = M + N and
not Y = M/2 + N. -/
theorem two_formula_units_violation :
    (phaseRxn isort unitsDb ⟨[solid "Y" (-1), solid "X" 1, sp "N" 1], 0⟩ ⟨[], [], 0⟩).rxn =
      some ⟨[solid "Y" (-1), sp "M" 1, sp "N" 1], 0⟩ ∧
    Obeys (weights [("M", 2), ("X", 1), ("Y", 1)]) 0 ⟨[solid "X" (-2), sp "M" 1], 0⟩ ∧
    Obeys (weights [("M", 2), ("X", 1), ("Y", 1)]) 0 ⟨[solid "Y" (-1), solid "X" 1, sp "N" 1], 0⟩ ∧
    ¬ Obeys (weights [("M", 2), ("X", 1), ("Y", 1)]) 0 ⟨[solid "Y" (-1), sp "M" 1, sp "N" 1], 0⟩ := by
  refine ⟨by decide +kernel, ?_, ?_, ?_⟩ <;> (unfold Obeys; decide +kernel)

/-- The identity of a master species whose equation has other species. -/
theorem iron_case : (speciesRxn isort
    (mkDb [("Fe+3", ⟨[sp "Fe+3" (-1), sp "Fe+2" 1, sp "e-" (-1)], -13⟩)] ["Fe+2", "e-", "Fe+3"] [])
    "Fe+3".toList ⟨[], [], 0⟩).rxn = some ⟨[sp "Fe+3" (-1), sp "Fe+3" 1], 0⟩ := by
  decide +kernel

/-- Hydrogen sulfide of sulfide, which is a secondary master species of sulfate. -/
def sulfide : Db :=
  { mkDb [("H2S", ⟨[sp "H2S" (-1), sp "HS-" 1, sp "H+" 1], 7⟩),
      ("HS-", ⟨[sp "HS-" (-1), sp "SO4-2" 1, sp "H+" 9, sp "e-" 8, sp "H2O" (-4)], 33⟩)]
      ["SO4-2", "H+", "e-", "H2O"] [] with
    secondary := fun n => n == "HS-".toList }

/-- The hypotheses of `masters_stay` are met, and sulfide stays. -/
theorem sulfide_case : (speciesRxn isort sulfide "H2S".toList ⟨[], [], 0⟩).rxn =
      some ⟨[sp "H2S" (-1), sp "H+" 1, sp "HS-" 1], 7⟩ ∧
    (sulfide.primary "H2S".toList = false ∧ sulfide.secondary "H2S".toList = false) ∧
    2 ≤ (sulfide.rxn "H2S".toList).toks.length ∧
    ∀ u ∈ (sulfide.rxn "H2S".toList).toks.tail, sulfide.primary u.name = true ∨ sulfide.secondary u.name = true := by
  refine ⟨by decide +kernel, by decide +kernel, by decide +kernel, by decide +kernel⟩

end Verif.Reaction
