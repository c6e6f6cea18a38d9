import Verif.Raw.Lemmas
import Verif.Raw.Solution
import Mathlib.Data.List.Induction

/-!
# `SOLUTION_RAW`: lemmas
-/

namespace Verif.Raw

open Verif.OMap Verif.NameDouble

/-- The totals after reading the entries of `nd` one by one. -/
def mergeAll (rnd : ℚ → ℚ) (nd : ND) : ND :=
  nd.foldl (fun m p => mergeEntry m (p.1, rnd p.2)) []

theorem lt_append_cons (l : Name) (c : Char) (s : Name) : l < l ++ c :: s := by
  have h : ([] : Name) < c :: s := List.nil_lt_cons _ _
  have := List.append_left_lt (l₁ := l) h
  simpa using this

theorem takeWhile_split (n : Name) (h : '(' ∈ n) :
    ∃ s, n = n.takeWhile (· ≠ '(') ++ '(' :: s := by
  induction n with
  | nil => simp at h
  | cons a n ih =>
    by_cases e : a = '('
    · subst e; exact ⟨n, by simp⟩
    · have h' : '(' ∈ n := by
        rcases List.mem_cons.mp h with h | h
        · exact absurd h.symm e
        · exact h
      obtain ⟨s, hs⟩ := ih h'
      refine ⟨s, ?_⟩
      rw [List.takeWhile_cons_of_pos (by simpa using e), List.cons_append, ← hs]

/-- `cutName` of a name with a parenthesis. -/
theorem cutName_cases (n : Name) (h : '(' ∈ n) :
    cutName n = n ∨ ∃ c s, '(' ∉ cutName n ∧ c ≠ '(' ∧ n = cutName n ++ c :: '(' :: s := by
  obtain ⟨s, hs⟩ := takeWhile_split n h
  have ht : ∀ c ∈ n.takeWhile (· ≠ '('), c ≠ '(' := by
    intro c hc
    simpa using List.mem_takeWhile_imp hc
  unfold cutName
  dsimp only
  generalize n.takeWhile (· ≠ '(') = t at *
  split
  · left; rfl
  · rename_i hp
    right
    have hne : t ≠ [] := fun e => hp (by rw [e]; rfl)
    have e1 : n.take (t.length - 1) = t.dropLast := by
      rw [hs, List.take_append_of_le_length (by omega), List.dropLast_eq_take]
    rw [e1]
    refine ⟨t.getLast hne, s, ?_, ht _ (List.getLast_mem hne), ?_⟩
    · intro hm; exact ht _ (List.dropLast_subset _ hm) rfl
    · rw [hs]
      conv_lhs => rw [← List.dropLast_append_getLast hne]
      simp

theorem cutName_append (k : Name) (c : Char) (s : Name) (h1 : '(' ∉ k) (h2 : c ≠ '(') :
    cutName (k ++ c :: '(' :: s) = k := by
  have : (k ++ c :: '(' :: s).takeWhile (· ≠ '(') = k ++ [c] := by
    rw [show k ++ c :: '(' :: s = (k ++ [c]) ++ '(' :: s by simp, List.takeWhile_append_of_pos]
    · simp
    · intro a ha
      rcases List.mem_append.mp ha with ha | ha
      · simp only [ne_eq, decide_not, Bool.not_eq_eq_eq_not, Bool.not_true, decide_eq_false_iff_not]
        rintro rfl; exact h1 ha
      · obtain rfl := List.mem_singleton.mp ha
        simpa using h2
  unfold cutName
  dsimp only
  rw [this]
  simp

theorem find_concat (nd : ND) (x : Name × ℚ) (k : Name) (h : k ≠ x.1) :
    find (nd ++ [x]) k = find nd k := by
  induction nd with
  | nil => obtain ⟨a, v⟩ := x; simp only [List.nil_append, find]; rw [if_neg h]
  | cons p nd ih =>
    obtain ⟨a, v⟩ := p
    simp only [List.cons_append, find]
    split
    · rfl
    · exact ih

theorem mergeAll_spec (rnd : ℚ → ℚ) (nd : ND) (hs : Sorted nd) :
    Sorted (mergeAll rnd nd) ∧ ∀ k,
      (Shadowed nd k → find (mergeAll rnd nd) k = none) ∧
      (¬ Shadowed nd k → find (mergeAll rnd nd) k = (find nd k).map rnd) := by
  induction nd using List.reverseRecOn with
  | nil => exact ⟨List.Pairwise.nil, fun k => ⟨fun _ => rfl, fun _ => rfl⟩⟩
  | append_singleton nd x ih =>
    obtain ⟨hs1, -, hs2⟩ := List.pairwise_append.mp hs
    have hlt : ∀ p ∈ nd, p.1 < x.1 := fun p hp => hs2 p hp x (List.mem_singleton.mpr rfl)
    obtain ⟨i1, i2⟩ := ih hs1
    have e : mergeAll rnd (nd ++ [x]) = mergeEntry (mergeAll rnd nd) (x.1, rnd x.2) := by
      simp [mergeAll, List.foldl_append]
    have hk : ∀ k, k ∈ keys nd → k < x.1 := by
      intro k hk
      obtain ⟨p, hp, rfl⟩ := List.mem_map.mp hk
      exact hlt p hp
    have hsh : ∀ k, Shadowed (nd ++ [x]) k ↔ Shadowed nd k ∨
        ∃ (c : Char) (s : Name), '(' ∉ k ∧ c ≠ '(' ∧ k ++ c :: '(' :: s = x.1 := by
      intro k
      simp only [Shadowed, keys, List.map_append, List.map_cons, List.map_nil, List.mem_append,
        List.mem_singleton]
      constructor
      · rintro ⟨c, s, h1, h2, h3 | h3⟩
        · exact Or.inl ⟨c, s, h1, h2, h3⟩
        · exact Or.inr ⟨c, s, h1, h2, h3⟩
      · rintro (⟨c, s, h1, h2, h3⟩ | ⟨c, s, h1, h2, h3⟩)
        · exact ⟨c, s, h1, h2, Or.inl h3⟩
        · exact ⟨c, s, h1, h2, Or.inr h3⟩
    refine ⟨e ▸ sorted_mergeEntry i1 _, fun k => ?_⟩
    rw [e, find_mergeEntry, hsh]
    dsimp only
    by_cases hkx : k = x.1
    · subst hkx
      rw [if_pos rfl]
      refine ⟨?_, fun _ => ?_⟩
      · rintro (⟨c, s, -, -, h3⟩ | ⟨c, s, -, -, h3⟩)
        · exact absurd (hk _ h3) (not_lt.mpr (lt_append_cons _ _ _).le)
        · have := congrArg List.length h3; simp at this
      · rw [find_of_mem hs (k := x.1) (v := x.2) (by simp)]; rfl
    · rw [if_neg hkx, find_concat nd x k hkx]
      by_cases hp : '(' ∈ x.1
      · rw [if_pos hp]
        by_cases hc : k = cutName x.1
        · rw [if_pos hc]
          refine ⟨fun _ => rfl, fun hn => absurd (Or.inr ?_) hn⟩
          rcases cutName_cases x.1 hp with h | ⟨c, s, h1, h2, h3⟩
          · exact absurd (hc.trans h) hkx
          · rw [← hc] at h1 h3
            exact ⟨c, s, h1, h2, h3.symm⟩
        · rw [if_neg hc]
          have hno : ¬ ∃ (c : Char) (s : Name), '(' ∉ k ∧ c ≠ '(' ∧ k ++ c :: '(' :: s = x.1 := by
            rintro ⟨c, s, h1, h2, h3⟩
            exact hc (by rw [← h3, cutName_append k c s h1 h2])
          simpa only [hno, or_false] using i2 k
      · rw [if_neg hp]
        have hno : ¬ ∃ (c : Char) (s : Name), '(' ∉ k ∧ c ≠ '(' ∧ k ++ c :: '(' :: s = x.1 := by
          rintro ⟨c, s, h1, h2, h3⟩
          exact hp (by rw [← h3]; simp)
        simp only [hno, or_false]
        split
        · rename_i hpre
          refine ⟨fun _ => rfl, fun _ => ?_⟩
          have : find nd k = none := by
            rw [find_eq_none_iff]
            intro hm
            obtain ⟨t, rfl⟩ := hpre
            have h1 := hk _ hm
            rw [List.append_assoc, List.singleton_append] at h1
            exact absurd h1 (not_lt.mpr (lt_append_cons _ _ _).le)
          rw [this]; rfl
        · exact i2 k

/-- Number of errors reported for an isotope. -/
def isoErrs (i : Isotope) : Nat := if i.uncertaintyDefined then 9 else 8

theorem goes_isotope (rnd : ℚ → ℚ) (i : Isotope) (v : Solution) (r : List Nat) (e : Nat) :
    Goes solutionStep (optLine "Isotope" [] :: dumpIsotope rnd i) ⟨v, some 0, r, e⟩
      ⟨v, some 0, r, e + isoErrs i⟩ := by
  unfold dumpIsotope solutionStep
  have tail : ∀ e', Goes (flatStep solutionOpts solutionAct (fun s => .go s.error))
      [optLine "x_ratio_uncertainty" [.num (rnd i.xUncertainty)], optLine "coef" [.num (rnd i.coef)]]
      ⟨v, some 0, r, e'⟩ ⟨v, some 0, r, e' + 2⟩ := fun e' =>
    goes_cons (flat_err _ _ (by decide) (by decide))
      (goes_one (flat_err _ _ (by decide) (by decide)))
  have mid : Goes (flatStep solutionOpts solutionAct (fun s => .go s.error))
      (if i.uncertaintyDefined then [optLine "ratio_uncertainty" [.num (rnd i.uncertainty)]] else [])
      ⟨v, some 0, r, e + 6⟩ ⟨v, some 0, r, e + (isoErrs i - 2)⟩ := by
    unfold isoErrs
    split
    · exact goes_one (flat_err _ _ (by decide) (by decide))
    · rfl
  rw [List.append_assoc]
  simp only [List.cons_append, List.nil_append]
  refine goes_cons (flat_opt 3 _ _ (by decide) (by decide))
    (goes_cons (flat_err _ _ (by decide) (by decide))
    (goes_cons (flat_err _ _ (by decide) (by decide))
    (goes_cons (flat_opt 0 _ _ (by decide) (by decide))
    (goes_cons (flat_err _ _ (by decide) (by decide))
    (goes_cons (s' := ⟨v, some 0, r, e + 6⟩) (flat_err _ _ (by decide) (by decide))
    (goes_append mid (goes_eq (tail _) ?_)))))))
  unfold isoErrs
  split <;> rfl

theorem goes_isotopes (rnd : ℚ → ℚ) (l : List (Name × Isotope)) (v : Solution) (r : List Nat)
    (e : Nat) :
    Goes solutionStep (l.flatMap (fun p => optLine "Isotope" [] :: dumpIsotope rnd p.2))
      ⟨v, some 0, r, e⟩ ⟨v, some 0, r, e + (l.map (fun p => isoErrs p.2)).sum⟩ := by
  induction l generalizing e with
  | nil => rfl
  | cons p l ih =>
    rw [List.flatMap_cons]
    refine goes_append (goes_isotope rnd p.2 v r e) (goes_eq (ih _) ?_)
    rw [List.map_cons, List.sum_cons, Nat.add_assoc]

def solTotals : Lens Solution ND where
  get c := c.totals
  set t c := { c with totals := t }
  get_set _ _ := rfl
  set_set _ _ _ := rfl
  set_get _ := rfl

def solActivities : Lens Solution ND where
  get c := c.activities
  set t c := { c with activities := t }
  get_set _ _ := rfl
  set_set _ _ _ := rfl
  set_get _ := rfl

def solGammas : Lens Solution ND where
  get c := c.gammas
  set t c := { c with gammas := t }
  get_set _ _ := rfl
  set_set _ _ _ := rfl
  set_get _ := rfl

def solSpecies : Lens Solution (SMap Int ℚ) where
  get c := c.speciesMap
  set t c := { c with speciesMap := t }
  get_set _ _ := rfl
  set_set _ _ _ := rfl
  set_get _ := rfl

def solLogGamma : Lens Solution (SMap Int ℚ) where
  get c := c.logGammaMap
  set t c := { c with logGammaMap := t }
  get_set _ _ := rfl
  set_set _ _ _ := rfl
  set_get _ := rfl

def solLogMolal : Lens Solution (SMap Int ℚ) where
  get c := c.logMolalMap
  set t c := { c with logMolalMap := t }
  get_set _ _ := rfl
  set_set _ _ _ := rfl
  set_get _ := rfl

theorem goes_solTotals (rnd : ℚ → ℚ) (nd : ND) (hp : ∀ p ∈ nd, Plain solutionOpts p.1)
    (s : RS Solution) (hs : s.save = some 0) (h0 : s.val.totals = []) :
    Goes solutionStep (dumpND rnd nd) s
      { s with val := { s.val with totals := mergeAll rnd nd } } := by
  refine goes_eq (goes_pairs (n := 0)
    (put := fun w q x => { x with totals := mergeEntry x.totals (w, q) }) rnd ?_ nd hp s hs) ?_
  · intro w q s hs
    obtain ⟨v, sv, r, e⟩ := s
    obtain rfl : sv = some 0 := hs
    rfl
  · have := foldl_lens solTotals.get solTotals.set solTotals.get_set solTotals.set_set
      solTotals.set_get (fun m (p : Name × ℚ) => mergeEntry m (p.1, rnd p.2)) nd s.val
    simp only [solTotals, h0] at this
    rw [this]; rfl

/-- A map with its option line, or nothing. -/
theorem goes_intMapLines {w : String} {n : Nat} (L : Lens Solution (SMap Int ℚ)) (rnd : ℚ → ℚ)
    (ho : isOption ('-' :: w.toList) = true) (hf : findOption false solutionOpts w.toList = some n)
    (h1 : ∀ v sv r e, solutionAct n [] ⟨v, sv, r, e⟩ = ⟨v, some n, r, e⟩)
    (h2 : ∀ (i : Int) q v r e, solutionAct n [.num i, .num q] ⟨v, some n, r, e⟩
      = ⟨L.set (OMap.insert (L.get v) i q) v, some n, r, e⟩)
    (m : SMap Int ℚ) (hm : Sorted m) (v : Solution) (sv : Option Nat) (r : List Nat) (e : Nat)
    (h0 : L.get v = []) :
    ∃ sv', Goes solutionStep (intMapLines rnd w m) ⟨v, sv, r, e⟩
      ⟨L.set (rounded rnd m) v, sv', r, e⟩ := by
  unfold intMapLines solutionStep
  split
  · rename_i h
    refine ⟨sv, ?_⟩
    rw [h, show rounded rnd ([] : SMap Int ℚ) = L.get v from h0.symm, L.set_get]
    rfl
  · refine ⟨some n, goes_cons (s' := ⟨v, some n, r, e⟩) ?_
      (goes_intMap L n rnd h2 m hm ⟨v, some n, r, e⟩ rfl h0)⟩
    rw [← h1 v sv r e]
    exact flat_opt n _ _ ho hf

/-- The solution read from the dumped text. -/
def Solution.restored (rnd : ℚ → ℚ) (h : Head) (x : Solution) : Solution :=
  ⟨h, rnd x.tc, rnd x.patm, rnd x.potV, rnd x.totalH, rnd x.totalO, rnd x.cb, rnd x.density,
    rnd x.viscosity, rnd x.viscos0, mergeAll rnd x.totals, [], rnd x.ph, rnd x.pe, rnd x.mu,
    rnd x.ah2o, rnd x.massWater, rnd x.solnVol, rnd x.totalAlk, rounded rnd x.activities,
    rounded rnd x.gammas, rounded rnd x.speciesMap, rounded rnd x.logGammaMap,
    rounded rnd x.logMolalMap⟩

theorem goes_solution (rnd : ℚ → ℚ) (x : Solution) (h : Head)
    (h1 : ∀ p ∈ x.totals, Plain solutionOpts p.1) (h2 : ListOk solutionOpts x.activities)
    (h3 : ListOk solutionOpts x.gammas) (h4 : Sorted x.speciesMap) (h5 : Sorted x.logGammaMap)
    (h6 : Sorted x.logMolalMap) :
    ∃ sv, Goes solutionStep (dumpSolution rnd x).tail
      ⟨newSolution h, none, [4, 7, 8, 9, 11, 13, 14, 19, 15, 17], 0⟩
      ⟨x.restored rnd h, sv, [], (x.isotopes.map (fun p => isoErrs p.2)).sum⟩ := by
  obtain ⟨hd, tc, patm, potV, tH, tO, cb, den, vi, v0, tot, iso, ph, pe, mu, ah, mw, sv, ta, act,
    gam, sp, lg, lm⟩ := x
  dsimp only at h1 h2 h3 h4 h5 h6
  unfold dumpSolution
  simp only [List.cons_append, List.nil_append, List.tail_cons, List.append_assoc]
  have g1 : Goes solutionStep [
      optLine "temp" [.num (rnd tc)], optLine "pressure" [.num (rnd patm)],
      optLine "potential" [.num (rnd potV)], optLine "total_h" [.num (rnd tH)],
      optLine "total_o" [.num (rnd tO)], optLine "cb" [.num (rnd cb)],
      optLine "density" [.num (rnd den)], optLine "viscosity" [.num (rnd vi)],
      optLine "viscos_0" [.num (rnd v0)], optLine "totals" []]
      ⟨newSolution h, none, [4, 7, 8, 9, 11, 13, 14, 19, 15, 17], 0⟩
      ⟨⟨h, rnd tc, rnd patm, rnd potV, rnd tH, rnd tO, rnd cb, rnd den, rnd vi, rnd v0, [], [],
        7, 4, 1/10000000, 1, 1, 1, 0, [], [], [], [], []⟩, some 0, [7, 8, 9, 11, 15, 17], 0⟩ := by
    exact goes_cons (flat_opt 4 _ _ (by decide) (by decide))
      (goes_cons (flat_opt 22 _ _ (by decide) (by decide))
      (goes_cons (flat_opt 26 _ _ (by decide) (by decide))
      (goes_cons (flat_opt 13 _ _ (by decide) (by decide))
      (goes_cons (flat_opt 14 _ _ (by decide) (by decide))
      (goes_cons (flat_opt 19 _ _ (by decide) (by decide))
      (goes_cons (flat_opt 21 _ _ (by decide) (by decide))
      (goes_cons (flat_opt 28 _ _ (by decide) (by decide))
      (goes_cons (flat_opt 29 _ _ (by decide) (by decide))
      (goes_eq (goes_one (flat_opt 0 _ _ (by decide) (by decide))) rfl)))))))))
  have g2 := goes_solTotals rnd tot h1
    ⟨⟨h, rnd tc, rnd patm, rnd potV, rnd tH, rnd tO, rnd cb, rnd den, rnd vi, rnd v0, [], [],
      7, 4, 1/10000000, 1, 1, 1, 0, [], [], [], [], []⟩, some 0, [7, 8, 9, 11, 15, 17], 0⟩ rfl rfl
  have g3 := goes_isotopes rnd iso
    ⟨h, rnd tc, rnd patm, rnd potV, rnd tH, rnd tO, rnd cb, rnd den, rnd vi, rnd v0,
      mergeAll rnd tot, [], 7, 4, 1/10000000, 1, 1, 1, 0, [], [], [], [], []⟩
    [7, 8, 9, 11, 15, 17] 0
  rw [Nat.zero_add] at g3
  generalize (iso.map (fun p => isoErrs p.2)).sum = er at g3
  have g4 : Goes solutionStep [
      optLine "pH" [.num (rnd ph)], optLine "pe" [.num (rnd pe)],
      optLine "mu" [.num (rnd mu)], optLine "ah2o" [.num (rnd ah)],
      optLine "mass_water" [.num (rnd mw)], optLine "soln_vol" [.num (rnd sv)],
      optLine "total_alkalinity" [.num (rnd ta)], optLine "activities" []]
      ⟨⟨h, rnd tc, rnd patm, rnd potV, rnd tH, rnd tO, rnd cb, rnd den, rnd vi, rnd v0,
        mergeAll rnd tot, [], 7, 4, 1/10000000, 1, 1, 1, 0, [], [], [], [], []⟩, some 0,
        [7, 8, 9, 11, 15, 17], er⟩
      ⟨⟨h, rnd tc, rnd patm, rnd potV, rnd tH, rnd tO, rnd cb, rnd den, rnd vi, rnd v0,
        mergeAll rnd tot, [], rnd ph, rnd pe, rnd mu, rnd ah, rnd mw, rnd sv, rnd ta,
        [], [], [], [], []⟩, some 1, [], er⟩ := by
    exact goes_cons (flat_opt 7 _ _ (by decide) (by decide))
      (goes_cons (flat_opt 8 _ _ (by decide) (by decide))
      (goes_cons (flat_opt 9 _ _ (by decide) (by decide))
      (goes_cons (flat_opt 11 _ _ (by decide) (by decide))
      (goes_cons (flat_opt 15 _ _ (by decide) (by decide))
      (goes_cons (flat_opt 23 _ _ (by decide) (by decide))
      (goes_cons (flat_opt 17 _ _ (by decide) (by decide))
      (goes_eq (goes_one (flat_opt 1 _ _ (by decide) (by decide))) rfl)))))))
  have g5 : Goes solutionStep (dumpND rnd act ++ [optLine "gammas" []] ++ dumpND rnd gam)
      ⟨⟨h, rnd tc, rnd patm, rnd potV, rnd tH, rnd tO, rnd cb, rnd den, rnd vi, rnd v0,
        mergeAll rnd tot, [], rnd ph, rnd pe, rnd mu, rnd ah, rnd mw, rnd sv, rnd ta,
        [], [], [], [], []⟩, some 1, [], er⟩
      ⟨⟨h, rnd tc, rnd patm, rnd potV, rnd tH, rnd tO, rnd cb, rnd den, rnd vi, rnd v0,
        mergeAll rnd tot, [], rnd ph, rnd pe, rnd mu, rnd ah, rnd mw, rnd sv, rnd ta,
        rounded rnd act, rounded rnd gam, [], [], []⟩, some 2, [], er⟩ :=
    goes_append (goes_append
      (goes_list solActivities 1 rnd (fun _ _ _ _ _ => rfl) act h2 _ rfl rfl)
      (goes_one (flat_opt 2 _ _ (by decide) (by decide))))
      (goes_list solGammas 2 rnd (fun _ _ _ _ _ => rfl) gam h3 _ rfl rfl)
  obtain ⟨v1, g6⟩ := goes_intMapLines (w := "species_map") (n := 24) solSpecies rnd (by decide)
    (by decide) (fun _ _ _ _ => rfl)
    (fun i q v r e => by simp only [solutionAct, readIntPair, trunc_int]; rfl) sp h4
    ⟨h, rnd tc, rnd patm, rnd potV, rnd tH, rnd tO, rnd cb, rnd den, rnd vi, rnd v0,
        mergeAll rnd tot, [], rnd ph, rnd pe, rnd mu, rnd ah, rnd mw, rnd sv, rnd ta,
        rounded rnd act, rounded rnd gam, [], [], []⟩ (some 2) [] er rfl
  obtain ⟨v2, g7⟩ := goes_intMapLines (w := "log_gamma_map") (n := 25) solLogGamma rnd (by decide)
    (by decide) (fun _ _ _ _ => rfl)
    (fun i q v r e => by simp only [solutionAct, readIntPair, trunc_int]; rfl) lg h5
    ⟨h, rnd tc, rnd patm, rnd potV, rnd tH, rnd tO, rnd cb, rnd den, rnd vi, rnd v0,
        mergeAll rnd tot, [], rnd ph, rnd pe, rnd mu, rnd ah, rnd mw, rnd sv, rnd ta,
        rounded rnd act, rounded rnd gam, rounded rnd sp, [], []⟩ v1 [] er rfl
  obtain ⟨v3, g8⟩ := goes_intMapLines (w := "log_molalities_map") (n := 27) solLogMolal rnd
    (by decide) (by decide) (fun _ _ _ _ => rfl)
    (fun i q v r e => by simp only [solutionAct, readIntPair, trunc_int]; rfl) lm h6
    ⟨h, rnd tc, rnd patm, rnd potV, rnd tH, rnd tO, rnd cb, rnd den, rnd vi, rnd v0,
        mergeAll rnd tot, [], rnd ph, rnd pe, rnd mu, rnd ah, rnd mw, rnd sv, rnd ta,
        rounded rnd act, rounded rnd gam, rounded rnd sp, rounded rnd lg, []⟩ v2 [] er rfl
  have g := goes_append g1 (goes_append g2 (goes_append g3 (goes_append g4 (goes_append g5
    (goes_append g6 (goes_append g7 g8))))))
  refine ⟨v3, ?_⟩
  simpa only [List.cons_append, List.nil_append, List.append_assoc, solLogMolal,
    Solution.restored] using g

/-- What the reader makes of a dumped solution. -/
theorem readSolution_dump (rnd : ℚ → ℚ) (x : Solution) (ls : List Line)
    (h1 : ∀ p ∈ x.totals, Plain solutionOpts p.1) (h2 : ListOk solutionOpts x.activities)
    (h3 : ListOk solutionOpts x.gammas) (h4 : Sorted x.speciesMap) (h5 : Sorted x.logGammaMap)
    (h6 : Sorted x.logMolalMap) (he : BlockEnd ls) :
    readSolution (dumpSolution rnd x ++ ls)
      = (x.restored rnd ⟨x.head.nUser, x.head.nUser, x.head.desc⟩,
          (x.isotopes.map (fun p => isoErrs p.2)).sum, ls) := by
  obtain ⟨sv, g⟩ := goes_solution rnd x ⟨x.head.nUser, x.head.nUser, x.head.desc⟩ h1 h2 h3 h4 h5 h6
  have hd : dumpSolution rnd x
      = headLine "SOLUTION_RAW" x.head :: (dumpSolution rnd x).tail := by
    simp [dumpSolution]
  rw [hd, List.cons_append]
  unfold readSolution
  dsimp only
  rw [readHead_headLine, feed_goes g]
  unfold solutionStep
  rw [feed_flat_end _ he]
  simp only [RS.check]
  rfl

end Verif.Raw
