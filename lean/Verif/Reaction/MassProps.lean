import Verif.Reaction.Couple
import Verif.Reaction.Props

/-!
# C173 and C174: reactions in a solution and redox couples
-/

namespace Verif.Reaction

open Verif.Equation (strLe)

/-- **C173.** The reaction of a species in a solution. If `write_mass_action_eqn_x` ends without error
within `n` turns (the program takes at most twenty), the first species is kept, no species occurs twice
behind it, none of the species that are to be replaced is left unless its coefficient is at most 10⁻⁵,
and with lost terms of at most 10⁻⁵ put back it obeys what the reactions obey. The number of lost terms
grows with the number of turns.

Partial: terms are lost as in C171; couples that are not known are undefined behaviour, see
`unknown_couple_violation`. -/
theorem solution_rewritten_partial {sort : List Tok → List Tok} (hs : Sorts sort) {m : Sol}
    (hsp : ∀ n r pe, m.rewrite n = some (r, pe) → ∀ u ∈ r.toks, u.sp = true)
    (hpe : ∀ n r, m.pe n = some r → ∀ u ∈ r.toks, u.sp = true) {M : Nat}
    (hM : ∀ n r pe, m.rewrite n = some (r, pe) → r.toks.length ≤ M)
    (hM' : ∀ n r, m.pe n = some r → r.toks.length ≤ M) {r : Rxn} (hr : ∀ u ∈ r.toks, u.sp = true)
    (h2 : 2 ≤ r.toks.length) {n : Nat} {t t' : Trxn}
    (h : (add r 1 (clear t)).bind (massLoop sort m n) = .ok t') :
    NearlyObeys (fun w κ => Obeys w κ r ∧ SolLaw m w κ) (r.toks.length * (2 * M + 1) ^ n + 2) (copy t') ∧
      t'.live.head? = r.toks.head? ∧
      (∀ u ∈ t'.live.tail, m.rewrite u.name = none ∨ |u.coef| ≤ tol) ∧
      (t'.live.tail.map (·.name)).Nodup := by
  cases ha : add r 1 (clear t) with
  | err => rw [ha] at h; cases h
  | ub => rw [ha] at h; cases h
  | ok t1 =>
    rw [ha] at h
    unfold Res.bind at h
    dsimp only at h
    obtain ⟨e1, e2, e3⟩ := add_first hr ha
    have hg : Good (fun _ => True) t1 := good_first e1 h2 (fun _ _ => trivial)
    obtain ⟨s1, s2, s3⟩ := massLoop_ok closed_true (fun _ _ _ _ => trivial) hs
      (fun n r pe h u hu => ⟨hsp n r pe h u hu, trivial⟩) (fun n r h u hu => ⟨hpe n r h u hu, trivial⟩)
      hM hM' n hg h
    have s1' := s1.mono (P' := fun w κ => Obeys w κ r ∧ SolLaw m w κ) (fun _ _ h => h.2) (le_refl _)
    refine ⟨?_, ?_, ?_, ?_⟩
    · refine nearly s1' ?_ ?_
      · intro w κ hp
        unfold val
        rw [e1, e2]
        exact hp.1
      · rw [e1]
        have hX : r.toks.length ≤ r.toks.length * (2 * M + 1) ^ n :=
          Nat.le_mul_of_pos_right _ (Nat.pow_pos (by omega))
        omega
    · rw [s1.2.2, e1]
    · intro u hu
      rcases s2 u hu with ⟨h1, h2⟩ | h1
      · exact Or.inl h2
      · exact Or.inr ((small_iff _).mp h1)
    · rw [List.Nodup, List.pairwise_map]
      exact s3.imp (fun h => h.2)

/-- **C173** (whole numbers). If all coefficients are whole numbers nothing is lost. -/
theorem solution_exact {sort : List Tok → List Tok} (hs : Sorts sort) {m : Sol}
    (hsp : ∀ n r pe, m.rewrite n = some (r, pe) → ∀ u ∈ r.toks, u.sp = true ∧ ∃ z : ℤ, u.coef = z)
    (hpe : ∀ n r, m.pe n = some r → ∀ u ∈ r.toks, u.sp = true ∧ ∃ z : ℤ, u.coef = z) {M : Nat}
    (hM : ∀ n r pe, m.rewrite n = some (r, pe) → r.toks.length ≤ M)
    (hM' : ∀ n r, m.pe n = some r → r.toks.length ≤ M) {r : Rxn}
    (hr : ∀ u ∈ r.toks, u.sp = true ∧ ∃ z : ℤ, u.coef = z) (h2 : 2 ≤ r.toks.length) {t t' : Trxn}
    (h : solutionRxn sort m r t = .ok t') {w : Weight} {κ : ℚ} (hw : Obeys w κ r) (hlaw : SolLaw m w κ) :
    Obeys w κ (copy t') ∧ ∀ u ∈ t'.live.tail, m.rewrite u.name = none ∨ u.coef = 0 := by
  have toMul : ∀ {x : ℚ}, (∃ z : ℤ, x = z) → Multiple 1 x := by
    rintro x ⟨z, rfl⟩
    exact ⟨z, by rw [mul_one]⟩
  unfold solutionRxn at h
  cases ha : add r 1 (clear t) with
  | err => rw [ha] at h; cases h
  | ub => rw [ha] at h; cases h
  | ok t1 =>
    rw [ha] at h
    unfold Res.bind at h
    dsimp only at h
    obtain ⟨e1, e2, e3⟩ := add_first (fun u hu => (hr u hu).1) ha
    have hg : Good (Multiple 1) t1 := good_first e1 h2 (fun u hu => toMul (hr u hu).2)
    obtain ⟨s1, s2, s3⟩ := massLoop_ok (closed_multiple 1) mul_int hs
      (fun n r pe h u hu => ⟨(hsp n r pe h u hu).1, toMul (hsp n r pe h u hu).2⟩)
      (fun n r h u hu => ⟨(hpe n r h u hu).1, toMul (hpe n r h u hu).2⟩) hM hM' maxAdd hg h
    refine ⟨?_, ?_⟩
    · have := exactly discrete_int s1 hlaw
      unfold val at this
      unfold Obeys copy
      dsimp only
      rw [this, e1, e2]
      exact hw
    · intro u hu
      rcases s2 u hu with ⟨h1, h2⟩ | h1
      · exact Or.inl h2
      · exact Or.inr (discrete_int _ (s1.2.1.q u (List.mem_of_mem_tail hu)) ((small_iff _).mp h1))

/-- **C174.** Two valence states in one reaction. If the reactions of the two states in terms of a primary
master species are combined without error, the result has the first species of the first one, obeys what
the two reactions obey up to lost terms, has no species twice behind the first one, and leaves room behind
its last entry, where `trxn_swap` writes. The primary master species is gone if it occurs once in each
reaction and the second reaction is not that of the primary master species itself. -/
theorem couple_partial {sort : List Tok → List Tok} (hs : Sorts sort) {r1 r2 : Rxn} {p : Name}
    (h1 : ∀ u ∈ r1.toks, u.sp = true) (h2 : ∀ u ∈ r2.toks, u.sp = true) {t t' : Trxn}
    (h : coupleRxn sort r1 r2 p t = .ok t') :
    NearlyObeys (fun w κ => Obeys w κ r1 ∧ Obeys w κ r2) ((r1.toks.length + r2.toks.length) / 2) (copy t') ∧
      t'.live.head? = r1.toks.head? ∧ (t'.live.tail.map (·.name)).Nodup ∧ t'.spare ≠ [] ∧
      ((∃ a b, r1.toks.tail.filter (fun u => u.name == p) = [a] ∧
        r2.toks.filter (fun u => u.name == p) = [b] ∧ b ∈ r2.toks.tail) → ∀ u ∈ t'.live.tail, u.name ≠ p) := by
  unfold coupleRxn at h
  split at h
  · cases h
  · rename_i hne
    split at h
    · cases h
    · rename_i hz
      have hz1 : zeroish (findCoef r1 p) = false := by
        cases hb : zeroish (findCoef r1 p) <;> simp_all
      have hz2 : zeroish (findCoef r2 p) = false := by
        cases hb : zeroish (findCoef r2 p) <;> simp_all
      have hc2 : findCoef r2 p ≠ 0 := by
        intro e; rw [e] at hz2; simp [zeroish] at hz2
      -- the entry that was found
      have hfind : ∀ {r : Rxn}, (∀ u ∈ r.toks, u.sp = true) → zeroish (findCoef r p) = false →
          ∃ u ∈ r.toks.tail, u.name = p ∧ u.coef = findCoef r p := by
        intro r hr hzr
        unfold findCoef at hzr ⊢
        rw [takeWhile_all (fun u hu => hr u (List.mem_of_mem_tail hu))] at hzr ⊢
        cases hf : r.toks.tail.find? (fun u => u.name == p) with
        | none => rw [hf] at hzr; simp [zeroish] at hzr
        | some u =>
          exact ⟨u, List.mem_of_find?_eq_some hf, by simpa using List.find?_some hf, rfl⟩
      obtain ⟨x1, hx1, hx1n, hx1c⟩ := hfind h1 hz1
      obtain ⟨x2, hx2, hx2n, hx2c⟩ := hfind h2 hz2
      cases ha : add r1 1 (clear t) with
      | err => rw [ha] at h; cases h
      | ub => rw [ha] at h; cases h
      | ok t1 =>
        rw [ha] at h
        unfold Res.bind at h
        dsimp only at h
        obtain ⟨e1, e2, e3⟩ := add_first h1 ha
        have hlen : 2 ≤ r1.toks.length := by
          have := List.length_pos_iff.mpr (List.ne_nil_of_mem hx1)
          rw [List.length_tail] at this
          omega
        have hg : Good (fun _ => True) t1 := good_first e1 hlen (fun _ _ => trivial)
        cases hb : add r2 (-(findCoef r1 p) / findCoef r2 p) t1 with
        | err => rw [hb] at h; cases h
        | ub => rw [hb] at h; cases h
        | ok t2 =>
          rw [hb] at h
          dsimp only at h
          obtain ⟨s1, s2, s3⟩ := step_round (P := fun w κ => Obeys w κ r1 ∧ Obeys w κ r2) closed_true hs hg
            (fun _ _ h => h.2) (fun u hu => ⟨h2 u hu, trivial⟩) hb h
          have htail : t2.live.tail = r1.toks.tail ++ scale (-(findCoef r1 p) / findCoef r2 p) r2.toks := by
            rw [s3, e1]
            cases hr : r1.toks with
            | nil => exact absurd hr e3
            | cons a l => rfl
          have hspt : ∀ u ∈ t2.live.tail, u.sp = true := by
            rw [htail]
            intro u hu
            rcases List.mem_append.mp hu with hu | hu
            · exact h1 u (List.mem_of_mem_tail hu)
            · obtain ⟨v, hv, rfl⟩ := List.mem_map.mp hu
              exact h2 v hv
          have hdist := combine_distinct hs h s2 hspt
          have hnodup : (t'.live.tail.map (·.name)).Nodup := by
            rw [List.Nodup, List.pairwise_map]
            exact hdist.imp (fun h => h.2)
          have hset2 : Settled (fun _ => True) t2 := by intro hl; omega
          obtain ⟨c1, c2, c3, c4, c5, c6⟩ := combine_keeps closed_true hs h (fun _ _ => trivial) hset2
          refine ⟨?_, ?_, hnodup, ?_, ?_⟩
          · refine nearly s1 ?_ ?_
            · intro w κ hp
              unfold val
              rw [e1, e2]
              exact hp.1
            · rw [e1]
              omega
          · rw [s1.2.2, e1]
          · intro hnil
            rw [hnil] at c6
            have hle : t2.live.length ≤ t'.live.length := by simp at c6; omega
            have hlt : t2.live.tail.length ≤ t'.live.tail.length := by
              rw [List.length_tail, List.length_tail]; omega
            have hsub : (t'.live.tail.map (·.name)) ⊆ (t2.live.tail.map (·.name)) := by
              intro n hn
              obtain ⟨u, hu, rfl⟩ := List.mem_map.mp hn
              obtain ⟨v, hv, _, e⟩ := c4 s2 u hu
              exact List.mem_map.mpr ⟨v, hv, e⟩
            have hsp := hnodup.subperm hsub
            have hperm := hsp.perm_of_length_le (by simpa using hlt)
            have hnd : (t2.live.tail.map (·.name)).Nodup := hperm.nodup_iff.mp hnodup
            rw [htail, List.map_append, List.nodup_append] at hnd
            exact hnd.2.2 p (List.mem_map.mpr ⟨x1, hx1, hx1n⟩) p
              (List.mem_map.mpr ⟨_, List.mem_map.mpr ⟨x2, List.mem_of_mem_tail hx2, rfl⟩, hx2n⟩) rfl
          · rintro ⟨a, b, fa, fb, hbt⟩
            have ha' : x1 = a := by
              have : x1 ∈ r1.toks.tail.filter (fun u => u.name == p) :=
                List.mem_filter.mpr ⟨hx1, by simp [hx1n]⟩
              rw [fa] at this
              simpa using this
            have hb' : x2 = b := by
              have : x2 ∈ r2.toks.filter (fun u => u.name == p) :=
                List.mem_filter.mpr ⟨List.mem_of_mem_tail hx2, by simp [hx2n]⟩
              rw [fb] at this
              simpa using this
            refine combine_cancel hs h hspt (p := p) (a := a)
              (b := { b with coef := -(findCoef r1 p) / findCoef r2 p * b.coef }) ?_ ?_
            · rw [htail, List.filter_append, fa]
              have : (scale (-(findCoef r1 p) / findCoef r2 p) r2.toks).filter (fun u => u.name == p) =
                  scale (-(findCoef r1 p) / findCoef r2 p) (r2.toks.filter (fun u => u.name == p)) := by
                unfold scale
                rw [List.filter_map]
                rfl
              rw [this, fb]
              rfl
            · dsimp only
              rw [← ha', ← hb', hx1c, hx2c]
              field_simp
              ring

/-- **C174** (the electron). `trxn_swap("e-")` puts the electron first with coefficient −1, has the same
names, and multiplies all sums and the constant by one number that is not zero: whatever the reaction obeyed
it still obeys. -/
theorem swap_obeys {t t' : Trxn} (h : swap electron t = .ok t') :
    t'.live.head? = some ⟨electron, true, -1⟩ ∧ (t'.live.map (·.name)).Perm (t.live.map (·.name)) ∧
      ∀ w κ, Obeys w κ (copy t') ↔ Obeys w κ (copy t) := by
  obtain ⟨u, hu, hn, hc, hh, ht, hk, hp⟩ := swap_ok h
  refine ⟨hh, hp, ?_⟩
  intro w κ
  unfold Obeys copy
  dsimp only
  rw [ht w, hk]
  have e : -1 / u.coef * tot w t.live + κ * (-1 / u.coef * t.logk) =
      -1 / u.coef * (tot w t.live + κ * t.logk) := by ring
  rw [e]
  constructor
  · intro h0
    rcases mul_eq_zero.mp h0 with h0 | h0
    · exfalso
      have := (div_eq_zero_iff.mp h0)
      rcases this with h | h
      · norm_num at h
      · exact hc h
    · exact h0
  · intro h0; rw [h0, mul_zero]

/-- **C174** (when the electron can be put first). With all entries species, room behind the last entry and
an electron among them, none with coefficient zero, the exchange is made. -/
theorem swap_works {t : Trxn} (hsp : ∀ u ∈ t.live, u.sp = true) (hr : t.spare ≠ []) {u : Tok}
    (hu : u ∈ t.live) (hn : u.name = electron) (hc : ∀ v ∈ t.live, v.name = electron → v.coef ≠ 0) :
    ∃ t', swap electron t = .ok t' := by
  unfold swap
  cases hf : t.live.findIdx? (fun u => !u.sp || u.name == electron) with
  | none =>
    have := List.findIdx?_eq_none_iff.mp hf u hu
    simp [hn] at this
  | some j =>
    obtain ⟨x1, x2, _⟩ := List.findIdx?_eq_some_iff_getElem.mp hf
    have hjm := List.getElem_mem x1
    have hjs := hsp _ hjm
    have hjn : (t.live[j]).name = electron := by rw [hjs] at x2; simpa using x2
    have h0 : 0 < t.live.length := List.length_pos_iff.mpr (List.ne_nil_of_mem hu)
    cases hs : t.spare with
    | nil => exact absurd hs hr
    | cons y ys =>
      dsimp only
      rw [List.getElem?_eq_getElem x1, List.getElem?_eq_getElem h0]
      dsimp only
      rw [if_neg (by rw [hjs]; simp), if_neg (hc _ hjm hjn)]
      exact ⟨_, rfl⟩

/-! ### Cases -/

/-- Iron(3) and sulfur: Fe+3 is replaced by Fe+2, electrons by the couple S(-2)/S(6). -/
def redox : Sol where
  rewrite n := if n = "Fe+3".toList then
    some (⟨[sp "Fe+3" (-1), sp "Fe+2" 1, sp "e-" (-1)], -13⟩, "S".toList) else none
  pe n := if n = "S".toList then
    some ⟨[sp "e-" (-1), sp "HS-" (1 / 8), sp "H2O" (1 / 2), sp "SO4-2" (-1 / 8), sp "H+" (-9 / 8)], -17 / 4⟩
    else none

/-- FeOH+2 = Fe+3 + H2O − H+ in that solution. -/
theorem redox_case : (solutionRxn isort redox
      ⟨[sp "FeOH+2" (-1), sp "Fe+3" 1, sp "H2O" 1, sp "H+" (-1)], -2⟩ ⟨[], [], 0⟩).rxn =
    some ⟨[sp "FeOH+2" (-1), sp "Fe+2" 1, sp "H+" (1 / 8), sp "H2O" (1 / 2), sp "HS-" (-1 / 8),
      sp "SO4-2" (1 / 8)], -2 - 13 + 17 / 4⟩ := by
  decide +kernel

/-- With the couple "pe" (e- = e-, whole numbers) the electron stays. -/
theorem pe_case : (solutionRxn isort { redox with pe := fun _ => some ⟨[sp "e-" (-1), sp "e-" 1], 0⟩ }
      ⟨[sp "FeOH+2" (-1), sp "Fe+3" 1, sp "H2O" 1, sp "H+" (-1)], -2⟩ ⟨[], [], 0⟩).rxn =
    some ⟨[sp "FeOH+2" (-1), sp "Fe+2" 1, sp "H+" (-1), sp "H2O" 1, sp "e-" (-1)], -15⟩ := by
  decide +kernel

/-- **C173 is violated** (unknown couple). A couple that is not in the list of couples is read from an empty
vector. -/
theorem unknown_couple_violation : solutionRxn isort { redox with pe := fun _ => none }
    ⟨[sp "FeOH+2" (-1), sp "Fe+3" 1, sp "H2O" 1, sp "H+" (-1)], -2⟩ ⟨[], [], 0⟩ = .ub := by
  decide +kernel

/-- The couple S(-2)/S(6) in terms of e-. -/
theorem couple_case : ((coupleRxn isort
      ⟨[sp "HS-" (-1), sp "SO4-2" 1, sp "H+" 9, sp "e-" 8, sp "H2O" (-4)], 34⟩
      ⟨[sp "SO4-2" (-1), sp "SO4-2" 1], 0⟩ "SO4-2".toList ⟨[], [], 0⟩).bind (swap electron)).rxn =
    some ⟨[sp "e-" (-1), sp "H+" (-9 / 8), sp "H2O" (1 / 2), sp "SO4-2" (-1 / 8), sp "HS-" (1 / 8)],
      -17 / 4⟩ := by
  decide +kernel

/-- Nitrogen: NO2- and NH4+ in terms of NO3-; the primary master species is gone. -/
theorem nitrogen_case : ((coupleRxn isort
      ⟨[sp "NO2-" (-1), sp "NO3-" 1, sp "H+" 2, sp "e-" 2, sp "H2O" (-1)], 28⟩
      ⟨[sp "NH4+" (-1), sp "NO3-" 1, sp "H+" 10, sp "e-" 8, sp "H2O" (-3)], 119⟩ "NO3-".toList
      ⟨[], [], 0⟩).bind (swap electron)).rxn =
    some ⟨[sp "e-" (-1), sp "H+" (-4 / 3), sp "H2O" (1 / 3), sp "NH4+" (1 / 6), sp "NO2-" (-1 / 6)],
      -91 / 6⟩ := by
  decide +kernel

end Verif.Reaction
