import Verif.Reaction.Couple
import Verif.Reaction.Props
import Mathlib.Algebra.Order.BigOperators.Group.List

/-!
# C171: which reactions are accepted, and master species
-/

namespace Verif.Reaction

open Verif.Equation (strLe)

/-- What the species of a list cost: only those that are to be replaced. -/
def cost (bad : Name → Bool) (W : Name → Nat) (l : List Name) : Nat :=
  (l.map fun n => if bad n then W n else 0).sum

/-- Specification: `S` is a set of species that contains the species of their equations. The equation of
every one of them that is to be replaced has the species first, with coefficient −1, and `W` counts at least
the replacements that are needed to write the species out. -/
def Ranked (db : Db) (S : Name → Prop) (bad : Name → Bool) (W : Name → Nat) : Prop :=
  ∀ n, S n → bad n = true → ∃ l, (db.rxn n).toks = ⟨n, true, -1⟩ :: l ∧ (∀ u ∈ l, S u.name) ∧
    1 + cost bad W (l.map (·.name)) ≤ W n

theorem cost_append (bad : Name → Bool) (W : Name → Nat) (l m : List Name) :
    cost bad W (l ++ m) = cost bad W l + cost bad W m := by
  simp [cost]

theorem cost_perm (bad : Name → Bool) (W : Name → Nat) {l m : List Name} (h : l.Perm m) :
    cost bad W l = cost bad W m := (h.map _).sum_eq

theorem cost_subset (bad : Name → Bool) (W : Name → Nat) {l m : List Name} (hl : l.Nodup) (h : l ⊆ m) :
    cost bad W l ≤ cost bad W m := by
  obtain ⟨k, hk1, hk2⟩ := hl.subperm h
  rw [← cost_perm bad W hk1]
  exact (hk2.map _).sum_le_sum (fun _ _ => Nat.zero_le _)

theorem cost_mem (bad : Name → Bool) (W : Name → Nat) {l : List Name} {n : Name} (h : n ∈ l)
    (hb : bad n = true) : W n ≤ cost bad W l := by
  have := cost_subset bad W (List.nodup_singleton n) (m := l) (by simpa using h)
  simpa [cost, hb] using this

/-- `trxn_combine` ends. -/
theorem combine_ends {Q : ℚ → Prop} (hQ : Closed Q) {sort : List Tok → List Tok} (hs : Sorts sort) {t : Trxn}
    (hg : Good Q t) : ∃ t', combine sort t = .ok t' := by
  cases hl : t.live with
  | nil => exact absurd hl hg.ne
  | cons a r =>
    by_cases hr : r = []
    · subst hr
      rw [combine_one hs t hl]
      obtain ⟨x, xs, hx, _⟩ := hg.settled (by rw [hl]; rfl)
      rw [hx]
      exact ⟨_, rfl⟩
    · obtain ⟨s1, sr, sp', _, h2, _⟩ := combine_two hQ hs t hl hr (fun u hu => hg.q u (by rw [hl]; simp [hu]))
      exact ⟨_, h2⟩

/-- A replacement makes the reaction cheaper. -/
theorem round_cheaper {sort : List Tok → List Tok} (hs : Sorts sort) {db : Db} {bad : Name → Bool}
    {S : Name → Prop} {W : Name → Nat} (hW : Ranked db S bad W) (hdb : ∀ n, ∀ u ∈ (db.rxn n).toks, u.sp = true) {t t1 t2 : Trxn}
    (hg : Good (fun _ => True) t) (hsp : ∀ u ∈ t.live.tail, u.sp = true)
    (hS : ∀ u ∈ t.live.tail, S u.name) {u : Tok} (hu : u ∈ t.live.tail) (hb : bad u.name = true) (h1 : add (db.rxn u.name) u.coef t = .ok t1) (h2 : combine sort t1 = .ok t2) :
    cost bad W (t2.live.tail.map (·.name)) < cost bad W (t.live.tail.map (·.name)) ∧
      Good (fun _ => True) t2 ∧ (∀ v ∈ t2.live.tail, v.sp = true) ∧ ∀ v ∈ t2.live.tail, S v.name := by
  obtain ⟨l, hl, hlS, hc⟩ := hW u.name (hS u hu) hb
  obtain ⟨s1, s2, s3⟩ := step_round (P := fun w κ => Obeys w κ (db.rxn u.name)) closed_true hs hg
    (fun _ _ h => h) (fun v hv => ⟨hdb _ v hv, trivial⟩) h1 h2
  have hgood := s1.2.1
  have htail : t1.live.tail = t.live.tail ++ (⟨u.name, true, u.coef * -1⟩ :: scale u.coef l) := by
    rw [s3, hl]
    cases ht : t.live with
    | nil => exact absurd ht hg.ne
    | cons a r => rfl
  have hspt : ∀ v ∈ t1.live.tail, v.sp = true := by
    rw [htail]
    intro v hv
    rcases List.mem_append.mp hv with hv | hv
    · exact hsp v hv
    · rcases List.mem_cons.mp hv with rfl | hv
      · rfl
      · obtain ⟨x, hx, rfl⟩ := List.mem_map.mp hv
        exact hdb u.name x (by rw [hl]; simp [hx])
  have hset2 : Settled (fun _ => True) t1 := by intro h; omega
  obtain ⟨c1, c2, c3, c4, c5, c6⟩ := combine_keeps closed_true hs h2 (fun _ _ => trivial) hset2
  have hnodup : (t2.live.tail.map (·.name)).Nodup := by
    rw [List.Nodup, List.pairwise_map]
    exact (combine_distinct hs h2 s2 hspt).imp (fun h => h.2)
  have hnl : u.name ∉ l.map (·.name) := by
    intro h
    have := cost_mem bad W h hb
    omega
  -- the name itself is left only if it occurs twice
  have hself : u.name ∈ t2.live.tail.map (·.name) → u.name ∈ (t.live.tail.erase u).map (·.name) := by
    intro hm
    by_contra hne
    obtain ⟨x, hx, hxn⟩ := List.mem_map.mp hm
    have hf1 : t.live.tail.filter (fun v => v.name == u.name) = [u] := by
      have hp := (List.perm_cons_erase hu).filter (fun v => v.name == u.name)
      have hz : (t.live.tail.erase u).filter (fun v => v.name == u.name) = [] := by
        rw [List.filter_eq_nil_iff]
        intro v hv
        simp only [beq_iff_eq]
        intro e
        exact hne (List.mem_map.mpr ⟨v, hv, e⟩)
      rw [List.filter_cons, if_pos (by simp), hz] at hp
      exact List.perm_singleton.mp hp
    have hf2 : (scale u.coef l).filter (fun v => v.name == u.name) = [] := by
      rw [List.filter_eq_nil_iff]
      intro v hv
      obtain ⟨y, hy, rfl⟩ := List.mem_map.mp hv
      simp only [beq_iff_eq]
      intro e
      exact hnl (List.mem_map.mpr ⟨y, hy, e⟩)
    have hab : t1.live.tail.filter (fun v => v.name == u.name) = [u, ⟨u.name, true, u.coef * -1⟩] := by
      rw [htail, List.filter_append, hf1, List.filter_cons, if_pos (by simp), hf2]
      rfl
    exact combine_cancel hs h2 hspt hab (by dsimp only; ring) x hx hxn
  have hsub : t2.live.tail.map (·.name) ⊆ (t.live.tail.erase u).map (·.name) ++ l.map (·.name) := by
    intro n hn
    by_cases he : n = u.name
    · subst he
      exact List.mem_append.mpr (Or.inl (hself hn))
    · obtain ⟨x, hx, rfl⟩ := List.mem_map.mp hn
      obtain ⟨y, hy, _, e⟩ := c4 s2 x hx
      rw [htail] at hy
      rcases List.mem_append.mp hy with hy | hy
      · refine List.mem_append.mpr (Or.inl (List.mem_map.mpr ⟨y, ?_, e⟩))
        rcases List.mem_cons.mp ((List.perm_cons_erase hu).subset hy) with rfl | h
        · exact absurd e.symm he
        · exact h
      · rcases List.mem_cons.mp hy with rfl | hy
        · exact absurd e.symm he
        · obtain ⟨z, hz, rfl⟩ := List.mem_map.mp hy
          exact List.mem_append.mpr (Or.inr (List.mem_map.mpr ⟨z, hz, e⟩))
  refine ⟨?_, hgood, ?_, ?_⟩
  · have h3 := cost_subset bad W hnodup hsub
    have h4 := cost_perm bad W ((List.perm_cons_erase hu).map (·.name))
    have h5 : cost bad W ((u :: t.live.tail.erase u).map (·.name)) =
        W u.name + cost bad W ((t.live.tail.erase u).map (·.name)) := by
      simp [cost, hb]
    rw [cost_append] at h3
    omega
  · intro v hv
    obtain ⟨y, hy, e, _⟩ := c4 s2 v hv
    rw [← e]
    exact hspt y hy
  · intro v hv
    rcases List.mem_append.mp (hsub (List.mem_map.mpr ⟨v, hv, rfl⟩)) with h | h
    · obtain ⟨y, hy, e⟩ := List.mem_map.mp h
      rw [← e]
      exact hS y (List.mem_of_mem_erase hy)
    · obtain ⟨y, hy, e⟩ := List.mem_map.mp h
      rw [← e]
      exact hlS y hy

/-- The loop ends if it may take as many turns as there are replacements, and one. -/
theorem subst_ends {sort : List Tok → List Tok} (hs : Sorts sort) {db : Db} {bad : Name → Bool}
    {S : Name → Prop} {W : Name → Nat} (hW : Ranked db S bad W) (hdb : ∀ n, ∀ u ∈ (db.rxn n).toks, u.sp = true) (nul : Res Trxn)
    (k : Nat) : ∀ {t : Trxn}, Good (fun _ => True) t → (∀ u ∈ t.live.tail, u.sp = true) →
      (∀ u ∈ t.live.tail, S u.name) → cost bad W (t.live.tail.map (·.name)) < k →
      ∃ t', subst sort db bad nul k t = .ok t' ∧ Good (fun _ => True) t' := by
  induction k with
  | zero => intro t _ _ _ h; omega
  | succ k ih =>
    intro t hg hsp hS hc
    unfold subst
    cases hf : t.live.tail.find? (fun u => !u.sp || bad u.name) with
    | none => exact ⟨t, rfl, hg⟩
    | some u =>
      have hu := List.mem_of_find?_eq_some hf
      have hb : bad u.name = true := by
        have := List.find?_some hf
        simpa [hsp u hu] using this
      dsimp only
      rw [if_neg (by rw [hsp u hu]; simp)]
      obtain ⟨l, hl, _⟩ := hW u.name (hS u hu) hb
      cases ha : add (db.rxn u.name) u.coef t with
      | err => unfold add at ha; rw [if_neg (by rw [hl]; simp)] at ha; cases ha
      | ub => unfold add at ha; rw [if_neg (by rw [hl]; simp)] at ha; cases ha
      | ok t1 =>
        have hg1 : Good (fun _ => True) t1 := by
          unfold add at ha
          rw [if_neg (by rw [hl]; simp), takeWhile_all (hdb u.name), hl] at ha
          cases ha
          refine ⟨?_, fun _ _ => trivial, ?_⟩
          · simp [Trxn.push, hg.ne]
          · intro h1
            have := List.length_pos_iff.mpr hg.ne
            simp [Trxn.push, scale] at h1
            omega
        obtain ⟨t2, ht2⟩ := combine_ends closed_true hs hg1
        obtain ⟨r1, r2, r3, r4⟩ := round_cheaper hs hW hdb hg hsp hS hu hb ha ht2
        obtain ⟨t', ht', hg'⟩ := ih r2 r3 r4 (by omega)
        refine ⟨t', ?_, hg'⟩
        unfold Res.bind
        dsimp only
        rw [ht2]
        exact ht'

/-- **C171** (acceptance). A species whose equation can be written out in at most twenty steps, itself
counted, is accepted: without cycles in the equations, with every species defined in its own equation. -/
theorem species_accepted {sort : List Tok → List Tok} (hs : Sorts sort) {db : Db}
    (hdb : ∀ n, ∀ u ∈ (db.rxn n).toks, u.sp = true) {S : Name → Prop} {W : Name → Nat} (hW : Ranked db S db.plain W) {n : Name}
    (hSn : S n) (hn : db.plain n = true) (h2 : 2 ≤ (db.rxn n).toks.length) (h20 : W n ≤ 20) (t : Trxn) :
    ∃ t', speciesRxn sort db n t = .ok t' := by
  obtain ⟨l, hl, hlS, hc⟩ := hW n hSn hn
  unfold speciesRxn
  rw [if_neg (by rw [hn]; simp)]
  cases ha : add (db.rxn n) 1 (clear t) with
  | err => unfold add at ha; rw [if_neg (by rw [hl]; simp)] at ha; cases ha
  | ub => unfold add at ha; rw [if_neg (by rw [hl]; simp)] at ha; cases ha
  | ok t1 =>
    obtain ⟨e1, e2, e3⟩ := add_first (hdb n) ha
    have hg : Good (fun _ => True) t1 := good_first e1 h2 (fun _ _ => trivial)
    have htl : t1.live.tail = l := by rw [e1, hl]; rfl
    obtain ⟨t2, ht2, hg2⟩ := subst_ends hs hW hdb .err maxAdd hg
      (by rw [htl]; intro u hu; exact hdb n u (by rw [hl]; simp [hu])) (by rw [htl]; exact hlS)
      (by rw [htl]; simp only [maxAdd]; omega)
    obtain ⟨t3, ht3⟩ := combine_ends closed_true hs hg2
    refine ⟨t3, ?_⟩
    unfold rewriteSecondary Res.bind
    dsimp only
    rw [ht2]
    exact ht3

/-! ### Master species in terms of primary master species -/

/-- The data base in which only primary master species count. -/
def Db.prim (db : Db) : Db := { db with secondary := fun _ => false }

theorem plain_prim (db : Db) : db.prim.plain = fun n => !(db.primary n) := by
  funext n
  simp [Db.plain, Db.prim]

/-- What happens at an entry without species is of no consequence if it is no result. -/
theorem subst_nul {sort : List Tok → List Tok} {db db' : Db} (hr : db.rxn = db'.rxn) {bad : Name → Bool}
    {nul nul' : Res Trxn} (hn : ∀ a, nul ≠ .ok a) (k : Nat) : ∀ {t t' : Trxn},
      subst sort db bad nul k t = .ok t' → subst sort db' bad nul' k t = .ok t' := by
  induction k with
  | zero => intro t t' h; cases h
  | succ k ih =>
    intro t t' h
    unfold subst at h ⊢
    cases hf : t.live.tail.find? (fun u => !u.sp || bad u.name) with
    | none => rw [hf] at h; exact h
    | some u =>
      rw [hf] at h
      dsimp only at h ⊢
      split at h
      · exact absurd h (hn t')
      · rename_i hsp
        rw [if_neg hsp, ← hr]
        cases ha : add (db.rxn u.name) u.coef t with
        | err => rw [ha] at h; cases h
        | ub => rw [ha] at h; cases h
        | ok t1 =>
          rw [ha] at h
          unfold Res.bind at h ⊢
          dsimp only at h ⊢
          cases hc : combine sort t1 with
          | err => rw [hc] at h; cases h
          | ub => rw [hc] at h; cases h
          | ok t2 =>
            rw [hc] at h
            dsimp only at h ⊢
            exact ih h

/-- The reaction of a master species is that of a species in the data base of primary master species. -/
theorem master_as_species {sort : List Tok → List Tok} {db : Db} {n : Name} {t t' : Trxn}
    (h : masterRxn sort db n t = .ok t') : speciesRxn sort db.prim n t = .ok t' := by
  unfold masterRxn at h
  unfold speciesRxn
  rw [plain_prim]
  cases hp : db.primary n with
  | true =>
    rw [hp] at h
    rw [if_pos (by simp [hp])]
    exact h
  | false =>
    rw [hp] at h
    rw [if_neg (by simp [hp])]
    change (add (db.rxn n) 1 (clear t)).bind _ = _
    simp only [Bool.false_eq_true, if_false] at h
    cases ha : add (db.rxn n) 1 (clear t) with
    | err => rw [ha] at h; cases h
    | ub => rw [ha] at h; cases h
    | ok t1 =>
      rw [ha] at h
      unfold Res.bind at h ⊢
      dsimp only at h ⊢
      unfold rewritePrimary at h
      unfold rewriteSecondary
      rw [plain_prim]
      cases hs : subst sort db (fun n => !(db.primary n)) .ub maxAdd t1 with
      | err => rw [hs] at h; cases h
      | ub => rw [hs] at h; cases h
      | ok t2 =>
        rw [hs] at h
        rw [subst_nul (db' := db.prim) rfl (by intro a h; cases h) maxAdd hs]
        exact h

/-- **C171** (secondary master species). The reaction of a secondary master species in terms of primary
master species, as for species.

Partial: as `species_rewritten_partial`. -/
theorem secondary_rewritten_partial {sort : List Tok → List Tok} (hs : Sorts sort) {db : Db}
    (hdb : ∀ n, ∀ u ∈ (db.rxn n).toks, u.sp = true) {M : Nat} (hM : ∀ n, (db.rxn n).toks.length ≤ M)
    {n : Name} (hn : db.primary n = false) (h2 : 2 ≤ (db.rxn n).toks.length) {t t' : Trxn}
    (h : masterRxn sort db n t = .ok t') :
    NearlyObeys (Law db) (10 * M + 2) (copy t') ∧
      t'.live.head? = (db.rxn n).toks.head? ∧
      (∀ u ∈ t'.live.tail, (u.sp = true ∧ db.primary u.name = true) ∨ |u.coef| ≤ tol) ∧
      (t'.live.tail.map (·.name)).Nodup := by
  obtain ⟨r1, r2, r3, r4⟩ := species_rewritten_partial hs (db := db.prim) hdb hM
    (by rw [plain_prim]; simp [hn]) h2 (master_as_species h)
  refine ⟨r1, r2, ?_, r4⟩
  intro u hu
  rcases r3 u hu with ⟨a, b | b⟩ | a
  · exact Or.inl ⟨a, b⟩
  · cases b
  · exact Or.inr a

/-- **C171** (primary master species). The reaction of a primary master species is the identity. -/
theorem primary_identity {sort : List Tok → List Tok} (hs : Sorts sort) {db : Db} {n : Name}
    (hn : db.primary n = true) {δ : ℚ} (hδ : tol < δ) {a : Tok} {l : List Tok}
    (ha : (db.rxn n).toks = a :: l)
    (hdb : ∀ u ∈ (db.rxn n).toks, u.sp = true ∧ u.coef ≠ 0 ∧ Multiple δ u.coef) {t t' : Trxn}
    (h : masterRxn sort db n t = .ok t') :
    copy t' = ⟨[a, { a with coef := -a.coef }], 0⟩ :=
  master_identity hs (db := db.prim) (by rw [plain_prim]; simp [hn]) hδ ha hdb (master_as_species h)

/-- **C171** (acceptance of secondary master species). -/
theorem secondary_accepted {sort : List Tok → List Tok} (hs : Sorts sort) {db : Db}
    (hdb : ∀ n, ∀ u ∈ (db.rxn n).toks, u.sp = true) {S : Name → Prop} {W : Name → Nat}
    (hW : Ranked db S (fun n => !(db.primary n)) W) {n : Name} (hSn : S n)
    (hn : db.primary n = false) (h2 : 2 ≤ (db.rxn n).toks.length) (h20 : W n ≤ 20) (t : Trxn) :
    ∃ t', masterRxn sort db n t = .ok t' := by
  obtain ⟨l, hl, hlS, hc⟩ := hW n hSn (by simp [hn])
  unfold masterRxn
  rw [hn]
  simp only [Bool.false_eq_true, if_false]
  cases ha : add (db.rxn n) 1 (clear t) with
  | err => unfold add at ha; rw [if_neg (by rw [hl]; simp)] at ha; cases ha
  | ub => unfold add at ha; rw [if_neg (by rw [hl]; simp)] at ha; cases ha
  | ok t1 =>
    obtain ⟨e1, e2, e3⟩ := add_first (hdb n) ha
    have hg : Good (fun _ => True) t1 := good_first e1 h2 (fun _ _ => trivial)
    have htl : t1.live.tail = l := by rw [e1, hl]; rfl
    obtain ⟨t2, ht2, hg2⟩ := subst_ends hs hW hdb .ub maxAdd hg
      (by rw [htl]; intro u hu; exact hdb n u (by rw [hl]; simp [hu])) (by rw [htl]; exact hlS)
      (by rw [htl]; simp only [maxAdd]; omega)
    obtain ⟨t3, ht3⟩ := combine_ends closed_true hs hg2
    refine ⟨t3, ?_⟩
    unfold rewritePrimary Res.bind
    dsimp only
    rw [ht2]
    exact ht3

/-! ### Cases -/

/-- Carbon dioxide takes two replacements, itself counted. -/
theorem carbon_accepted (t : Trxn) : ∃ t', speciesRxn isort carbon "CO2".toList t = .ok t' := by
  refine species_accepted isort_sorts (db := carbon) ?_
    (S := fun n => n ∈ ["CO3-2".toList, "H+".toList, "H2O".toList, "HCO3-".toList, "CO2".toList])
    (W := fun n => if n = "CO2".toList then 2 else 1) ?_ (by decide) (by decide +kernel) (by decide +kernel)
    (by decide) t
  · intro n u hu
    simp only [carbon, mkDb] at hu
    split at hu
    · rename_i e he
      have := List.mem_of_find?_eq_some he
      simp only [List.mem_cons, List.not_mem_nil, or_false] at this
      rcases this with rfl | rfl
      all_goals
        simp only [List.mem_cons, List.not_mem_nil, or_false, sp] at hu
        rcases hu with rfl | rfl | rfl | rfl <;> rfl
    · split at hu
      · simp only [List.mem_cons, List.not_mem_nil, or_false] at hu
        rcases hu with rfl | rfl <;> rfl
      · cases hu
  · intro n hn hb
    simp only [List.mem_cons, List.not_mem_nil, or_false] at hn
    rcases hn with rfl | rfl | rfl | rfl | rfl
    · exact absurd hb (by decide +kernel)
    · exact absurd hb (by decide +kernel)
    · exact absurd hb (by decide +kernel)
    · exact ⟨[sp "CO3-2" 1, sp "H+" 1], by decide +kernel, by decide, by decide +kernel⟩
    · exact ⟨[sp "HCO3-" 1, sp "H+" 1, sp "H2O" (-1)], by decide +kernel, by decide, by decide +kernel⟩

/-- Iron(3) as a secondary master species: Fe+3 = Fe+2 − e-. -/
theorem iron_master_case : (masterRxn isort
      (mkDb [("Fe+3", ⟨[sp "Fe+3" (-1), sp "Fe+2" 1, sp "e-" (-1)], -13⟩)] ["Fe+2", "e-"] [])
      "Fe+3".toList ⟨[], [], 0⟩).rxn = some ⟨[sp "Fe+3" (-1), sp "Fe+2" 1, sp "e-" (-1)], -13⟩ ∧
    (masterRxn isort (mkDb [] ["Fe+2", "e-"] []) "Fe+2".toList ⟨[], [], 0⟩).rxn =
      some ⟨[sp "Fe+2" (-1), sp "Fe+2" 1], 0⟩ := by
  decide +kernel

end Verif.Reaction
