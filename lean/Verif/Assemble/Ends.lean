import Verif.Assemble.Solids

/-! # Helper lemmas: the whole step, mixtures, marks -/

namespace Verif.Assemble

open Spec

theorem Spec.Ordinary.element {db : Db} {e : Name} (h : Ordinary db e) : Element db e := by
  obtain ⟨m, h1, h2⟩ := h
  exact ⟨m, exact_mem h1, exact_name h1, h1, by rw [h2]; decide, by rw [h2]; decide⟩

/-- With one master species for each name, the one that is found is the one with the name. -/
theorem exact_of_mem {db : Db} (hn : (db.masters.map Master.name).Nodup) {m : Master} (hm : m ∈ db.masters) :
    db.exact m.name = some m := by
  unfold Db.exact
  generalize db.masters = l at hn hm
  induction l with
  | nil => cases hm
  | cons k l ih =>
    rw [List.map_cons, List.nodup_cons] at hn
    rcases List.mem_cons.mp hm with h | h
    · subst h
      simp [List.find?]
    · have : ¬ k.name = m.name := fun h' => hn.1 (h' ▸ List.mem_map_of_mem h)
      rw [List.find?_cons_of_neg (by simpa using this)]
      exact ih hn.2 h

/-- The parts of a run of `step`. -/
theorem step_ok {db : Db} {i : Input} {k : Nat} {d : Done} (h : step db i k = .ok d) :
    ∃ st r q, gather db i k = .ok st ∧ addSolids db i st = .ok r ∧ checks db i r.2.2.tot r.1 r.2.1 = .ok q ∧
      (((solutionCheck db.least db.masters r.2.2).1 = false ∧ d = .massBalance i.pp i.ss)
        ∨ ((solutionCheck db.least db.masters r.2.2).1 = true ∧
          d = .sum (solutionCheck db.least db.masters r.2.2).2
            { totals := saved db (solutionCheck db.least db.masters r.2.2).2.tot
              h := (solutionCheck db.least db.masters r.2.2).2.h
              o := (solutionCheck db.least db.masters r.2.2).2.o
              cb := (solutionCheck db.least db.masters r.2.2).2.cb
              water := (solutionCheck db.least db.masters r.2.2).2.water
              inten := (solutionCheck db.least db.masters r.2.2).2.inten } q.1 r.2.1 q.2)) := by
  unfold step at h
  obtain ⟨st, h1, h⟩ := Res.bind_ok h
  obtain ⟨r, h2, h⟩ := Res.bind_ok h
  obtain ⟨q, h3, h⟩ := Res.bind_ok h
  refine ⟨st, r, q, h1, h2, h3, ?_⟩
  cases hs : solutionCheck db.least db.masters r.2.2 with
  | mk b s =>
    rw [hs] at h
    cases b with
    | false =>
      cases h
      exact Or.inl ⟨rfl, rfl⟩
    | true =>
      cases h
      exact Or.inr ⟨rfl, rfl⟩

/-! ## The check of minerals -/

/-- A mineral before and after the check: only `delta` of minerals without moles changes. -/
def Checked (c c' : PPComp) : Prop := (c.moles > 0 ∧ c' = c) ∨ (c.moles ≤ 0 ∧ c' = { c with delta := 0 })

theorem ppCheckComps_ok {db : Db} {tot : Name → ℚ} (l : List PPComp) (r : List PPComp × List Name)
    (h : ppCheckComps db tot l = .ok r) : List.Forall₂ Checked l r.1 := by
  induction l generalizing r with
  | nil =>
    cases h
    exact .nil
  | cons c l ih =>
    rw [ppCheckComps] at h
    obtain ⟨q, h1, h2⟩ := Res.bind_ok h
    by_cases hm : c.moles ≤ 0
    · rw [if_pos hm] at h2
      cases hl : ppElts db c with
      | none => rw [hl] at h2; cases h2
      | some e =>
        rw [hl] at h2
        dsimp only at h2
        obtain ⟨u, h3, h4⟩ := Res.bind_ok h2
        split_ifs at h4
        cases h4
        exact .cons (Or.inr ⟨hm, rfl⟩) (ih _ h1)
    · rw [if_neg hm] at h2
      cases h2
      exact .cons (Or.inl ⟨not_le.mp hm, rfl⟩) (ih _ h1)

theorem forall2_refl (l : List PPComp) : List.Forall₂ (fun c c' => c' = c ∨ Checked c c') l l := by
  induction l with
  | nil => exact .nil
  | cons c l ih => exact .cons (Or.inl rfl) ih

theorem ppCheck_ok {db : Db} {tot : Name → ℚ} {x : PP} {r : PP × List Name} (h : ppCheck db tot x = .ok r) :
    List.Forall₂ (fun c c' => c' = c ∨ Checked c c') x.comps r.1.comps := by
  unfold ppCheck at h
  split_ifs at h
  · cases h
    exact forall2_refl _
  · obtain ⟨q, h1, h2⟩ := Res.bind_ok h
    cases h2
    exact (ppCheckComps_ok _ _ h1).imp fun _ _ k => Or.inr k

theorem checks_ok {db : Db} {i : Input} {tot : Name → ℚ} {pp : Option PP} {ss : Option (List (List SSComp))}
    {q : Option PP × List Name} (h : checks db i tot pp ss = .ok q) :
    ((pp = none ∧ q.1 = none) ∨ ∃ p p', pp = some p ∧ q.1 = some p' ∧
      List.Forall₂ (fun c c' => c' = c ∨ Checked c c') p.comps p'.comps) := by
  unfold checks at h
  obtain ⟨_, _, h⟩ := Res.bind_ok h
  obtain ⟨r, h1, h⟩ := Res.bind_ok h
  obtain ⟨_, _, h2⟩ := Res.bind_ok h
  cases h2
  cases hp : pp with
  | none =>
    rw [hp] at h1
    cases h1
    exact Or.inl ⟨rfl, rfl⟩
  | some p =>
    rw [hp] at h1
    obtain ⟨u, h3, h4⟩ := Res.bind_ok h1
    cases h4
    exact Or.inr ⟨p, u.1, rfl, rfl, ppCheck_ok h3⟩

theorem Checked.mineral {db : Db} {a : Acct} {c c' : PPComp} (h : c' = c ∨ Checked c c') :
    inMineral db a c' = inMineral db a c := by
  rcases h with rfl | ⟨_, rfl⟩ | ⟨_, rfl⟩ <;> rfl

theorem checked_sum {db : Db} {a : Acct} {l l' : List PPComp}
    (h : List.Forall₂ (fun c c' => c' = c ∨ Checked c c') l l') :
    (l'.map (inMineral db a)).sum = (l.map (inMineral db a)).sum := by
  induction h with
  | nil => rfl
  | cons h _ ih => rw [List.map_cons, List.map_cons, List.sum_cons, List.sum_cons, ih, Checked.mineral h]

theorem checks_held {db : Db} {i : Input} {tot : Name → ℚ} {pp : Option PP} {ss : Option (List (List SSComp))}
    {q : Option PP × List Name} (h : checks db i tot pp ss = .ok q) (a : Acct) : held db a q.1 ss = held db a pp ss := by
  unfold held
  congr 1
  rcases checks_ok h with ⟨h1, h2⟩ | ⟨p, p', h1, h2, h3⟩
  · rw [h1, h2]
  · rw [h1, h2]
    exact checked_sum h3

/-! ## Stored totals -/

theorem saved_listed {db : Db} (hn : (db.masters.map Master.name).Nodup) (tot : Name → ℚ) (s : Solution)
    (hs : s.totals = saved db tot) {m : Master} (hm : m ∈ db.masters) (h1 : m.typ = .aq) (h2 : m.sp = .other) :
    listed s m.name = if tot m.name > db.least then tot m.name else 0 := by
  unfold listed
  rw [hs]
  unfold saved
  generalize db.masters = l at hn hm
  induction l with
  | nil => cases hm
  | cons k l ih =>
    rw [List.map_cons, List.nodup_cons] at hn
    rcases List.mem_cons.mp hm with h | h
    · subst h
      have hrest : ∀ p : Master → Bool, (((l.filter p).map fun m => (m.name, tot m.name)).filter fun x => x.1 == m.name) = [] := by
        intro p
        rw [List.filter_eq_nil_iff]
        intro x hx
        obtain ⟨y, hy, rfl⟩ := List.mem_map.mp hx
        have : y.name ≠ m.name := fun h => hn.1 (h ▸ List.mem_map_of_mem (List.mem_of_mem_filter hy))
        simpa using this
      by_cases ht : tot m.name > db.least
      · rw [List.filter_cons_of_pos (by simp [h1, h2, ht]), List.map_cons, List.filter_cons_of_pos (by simp), hrest, if_pos ht]
        simp
      · rw [List.filter_cons_of_neg (by simp [h1, h2, ht]), hrest, if_neg ht]
        simp
    · have hne : ¬ k.name = m.name := fun h' => hn.1 (h' ▸ List.mem_map_of_mem h)
      have := ih hn.2 h
      rw [← this, List.filter_cons]
      split_ifs
      · rw [List.map_cons, List.filter_cons_of_neg (by simpa using hne)]
      · rfl

/-! ## Mixtures -/

/-- What the first loop of `add_mix` sums up. -/
theorem mixSum_fold (sols : Int → Option Solution) (l : List (Int × ℚ)) (a : MixSum)
    (hp : ∀ p ∈ mixParts sols l, 0 ≤ p.1) :
    (l.foldl (mixSum sols) a).water = a.water + ((mixParts sols l).map fun p => p.1 * p.2.water).sum
      ∧ (l.foldl (mixSum sols) a).posWater = a.posWater + ((mixParts sols l).map fun p => p.1 * p.2.water).sum := by
  induction l generalizing a with
  | nil => simp [mixParts]
  | cons x l ih =>
    rw [List.foldl_cons]
    cases hx : sols x.1 with
    | none =>
      have he : mixParts sols (x :: l) = mixParts sols l := by simp [mixParts, hx]
      rw [he] at hp ⊢
      obtain ⟨i1, i2⟩ := ih (mixSum sols a x) hp
      rw [i1, i2]
      simp [mixSum, hx]
    | some s =>
      have he : mixParts sols (x :: l) = (x.2, s) :: mixParts sols l := by simp [mixParts, hx]
      rw [he] at hp ⊢
      obtain ⟨i1, i2⟩ := ih (mixSum sols a x) fun p hp' => hp p (List.mem_cons_of_mem _ hp')
      rw [i1, i2, List.map_cons, List.sum_cons]
      have h0 : 0 ≤ x.2 := hp _ (List.mem_cons_self ..)
      by_cases hpos : x.2 > 0
      · simp only [mixSum, hx, if_pos hpos]
        exact ⟨by ring, by ring⟩
      · have hz : x.2 = 0 := le_antisymm (not_lt.mp hpos) h0
        simp only [mixSum, hx, if_neg hpos]
        rw [hz]
        exact ⟨by ring, by ring⟩

/-- The average the second loop builds up when all weights are for the same water. -/
theorem mixOne_inten {db : Db} (sols : Int → Option Solution) (k : MixSum) (n : Nat) (W : ℚ) (h1 : k.water = W)
    (h2 : k.posWater = W) (l : List (Int × ℚ)) (st st' : St) (h : l.foldl (mixOne db sols k n) (.ok st) = .ok st') (j : Inten) :
    st'.inten j = st.inten j + ((mixParts sols l).map fun p => p.2.inten j * (p.1 * p.2.water)).sum / W := by
  induction l generalizing st with
  | nil =>
    cases h
    simp [mixParts]
  | cons x l ih =>
    rw [List.foldl_cons] at h
    obtain ⟨s, hs⟩ := mixOne_fold_bad _ _ _ _ _ _ _ h
    rw [hs] at h
    have i1 := ih s h
    simp only [mixOne, Res.bind] at hs
    cases hx : sols x.1 with
    | none =>
      simp only [hx, Res.ok.injEq] at hs
      subst hs
      rw [i1]
      simp [mixParts, hx]
    | some s0 =>
      simp only [hx] at hs
      cases hw : weight k n x.2 s0 with
      | none => rw [hw] at hs; cases hs
      | some w =>
        rw [hw] at hs
        cases hs
        have hww : w = x.2 * s0.water / W := by
          unfold weight at hw
          rw [h1, h2] at hw
          split_ifs at hw <;> simpa using hw.symm
        rw [i1, (addSolution_rest db s0 x.2 w st).2.2 j]
        rw [show mixParts sols (x :: l) = (x.2, s0) :: mixParts sols l by simp [mixParts, hx]]
        rw [List.map_cons, List.sum_cons, hww]
        ring

theorem filter_pos_sum (l : List (ℚ × Solution)) (hp : ∀ p ∈ l, 0 ≤ p.1) (v : Solution → ℚ) :
    ((l.filter fun p => decide (p.1 > 0)).map fun p => v p.2 * (p.1 * p.2.water)).sum
      = (l.map fun p => v p.2 * (p.1 * p.2.water)).sum := by
  induction l with
  | nil => rfl
  | cons p l ih =>
    have ih := ih fun q hq => hp q (List.mem_cons_of_mem _ hq)
    have h0 := hp p (List.mem_cons_self ..)
    by_cases h : p.1 > 0
    · rw [List.filter_cons_of_pos (by simpa using h), List.map_cons, List.map_cons, List.sum_cons, List.sum_cons, ih]
    · have hz : p.1 = 0 := le_antisymm (not_lt.mp h) h0
      rw [List.filter_cons_of_neg (by simpa using h), List.map_cons, List.sum_cons, ih, hz]
      ring

theorem filter_pos_water (l : List (ℚ × Solution)) (hp : ∀ p ∈ l, 0 ≤ p.1) :
    ((l.filter fun p => decide (p.1 > 0)).map fun p => p.1 * p.2.water).sum = (l.map fun p => p.1 * p.2.water).sum := by
  have := filter_pos_sum l hp (fun _ => 1)
  simpa using this

/-- A mixture has the averages. -/
theorem addMix_inten {db : Db} {sols : Int → Option Solution} {l : List (Int × ℚ)} {st st' : St}
    (h : addMix db sols l st = .ok st') (hp : ∀ p ∈ mixParts sols l, 0 ≤ p.1) (j : Inten) :
    st'.inten j = st.inten j + average (mixParts sols l) j := by
  unfold addMix at h
  obtain ⟨s1, s2⟩ := mixSum_fold sols l { water := 0, posWater := 0, positive := 0, errors := st.errors } hp
  have := mixOne_inten sols _ _ ((mixParts sols l).map fun p => p.1 * p.2.water).sum (by rw [s1, zero_add])
    (by rw [s2, zero_add]) l _ _ h j
  rw [this]
  unfold average
  rw [filter_pos_sum _ hp fun s => s.inten j, filter_pos_water _ hp]

/-- Averaged properties other than temperature and pressure stay as the water gives them. -/
theorem gather_inten {db : Db} {i : Input} {k : Nat} {st : St} (h : gather db i k = .ok st) :
    ∃ s, addWater db i (zero k) = .ok s ∧
      ∀ j, j ≠ .patm → st.inten j = match j, i.temperature with
        | .tc, some t => t
        | _, _ => s.inten j := by
  unfold gather at h
  obtain ⟨s1, h1, h⟩ := Res.bind_ok h
  obtain ⟨s2, h2, h⟩ := Res.bind_ok h
  obtain ⟨s3, h3, h⟩ := Res.bind_ok h
  obtain ⟨s4, h4, h⟩ := Res.bind_ok h
  obtain ⟨s5, h5, h⟩ := Res.bind_ok h
  obtain ⟨s6, h6, h⟩ := Res.bind_ok h
  obtain ⟨s7, h7, h8⟩ := Res.bind_ok h
  have e2 : s2.inten = s1.inten := by
    cases hr : i.reaction with
    | none => rw [hr] at h2; cases h2; rfl
    | some r => rw [hr] at h2; exact (addReaction_get (a := .h) trivial _ _ _ _ h2).2.2.2
  have e3 : s3.inten = s2.inten := by
    cases hr : i.kinetics with
    | none => rw [hr] at h3; cases h3; rfl
    | some r => rw [hr] at h3; exact (addElts_rest _ _ _ _ _ h3).2.2
  have e4 : s4.inten = s3.inten := by
    cases hr : i.exchange with
    | none => rw [hr] at h4; cases h4; rfl
    | some r => rw [hr] at h4; exact (addExchange_get (a := .h) trivial _ _ _ h4).2.2.2
  have e5 : s5.inten = s4.inten := by
    cases hr : i.surface with
    | none => rw [hr] at h5; cases h5; rfl
    | some r =>
      rw [hr] at h5
      exact addSurface_inten h5
  have e6 : ∀ j, j ≠ .patm → s6.inten j = s5.inten j := by
    cases hr : i.gas with
    | none => rw [hr] at h6; cases h6; exact fun _ _ => rfl
    | some r => rw [hr] at h6; exact (addGas_get (a := .h) trivial _ _ _ h6).2.2.2
  have e8 : ∀ j, j ≠ .patm → st.inten j = s7.inten j := by
    cases hr : i.pressure with
    | none => rw [hr] at h8; cases h8; exact fun _ _ => rfl
    | some r =>
      rw [hr] at h8
      cases h8
      intro j hj
      simp [St.setInten, hj]
  refine ⟨s1, h1, fun j hj => ?_⟩
  have e17 : s6.inten j = s1.inten j := by rw [e6 j hj, e5, e4, e3, e2]
  rw [e8 j hj]
  cases ht : i.temperature with
  | none =>
    rw [ht] at h7
    cases h7
    cases j <;> exact e17
  | some t =>
    rw [ht] at h7
    cases h7
    cases j <;> simp [St.setInten] at e17 hj ⊢ <;> exact e17

/-! ## What is left -/

/-- A solid that has moles left has given enough of each of its elements. -/
theorem Gives.left {db : Db} {least : ℚ} {l : Amounts} {n g : ℚ} {st st' : St} (hg : Gives db least l n g st st')
    (hl : ∀ x ∈ l, 0 ≤ x.2) (hlt : g < n) {x : Name × ℚ} (hx : x ∈ l) (hpos : 0 < x.2) {e : Name} (he : Element db e)
    (hxe : db.first x.1 = e) : st'.tot e > least ∨ st'.tot e ≥ 1 / 10000000000 := by
  have hs := hg.sums (.elt e) he
  simp only [St.get] at hs
  have hb : belongs db (.elt e) x.1 = true := by simpa [belongs] using hxe
  have h3 : x.2 * g ≤ amount db (.elt e) l * g := mul_le_mul_of_nonneg_right (le_amount hl hx hb) hg.nonneg
  have h4 : 0 ≤ x.2 * g := mul_nonneg (le_of_lt hpos) hg.nonneg
  obtain ⟨m, k1, k2, k3, k4⟩ := belongs_elt he hxe
  by_cases hle : st.tot e ≤ least
  · right
    have h2 := (hg.enough hlt x hx m k1 k3 k4 (by rw [k2]; exact hle)).1
    rw [k2, div_le_iff₀ hpos] at h2
    have : g * x.2 = x.2 * g := by ring
    linarith
  · left
    have := not_le.mp hle
    show least < st'.tot e
    linarith

end Verif.Assemble
