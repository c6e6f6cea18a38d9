import Verif.Assemble.Limits

/-! # Properties of the tests for missing elements and of the limits for solid solutions -/

namespace Verif.Assemble

open Spec

/-- C183. Without solid solutions, the species a step marks as absent are the species of all redox states of those elements that
a mineral without moles needs and that are not in the sum. -/
theorem marks_exact {db : Db} (hs : Sound db) {i : Input} (hl : Listed db i) {k : Nat} {st : St} {sol : Solution} {pp' : Option PP}
    {ss : Option (List (List SSComp))} {marks : List Name} (hno : i.ss = none)
    (h : step db i k = .ok (.sum st sol pp' ss marks)) (s : Name) :
    s ∈ marks ↔ ∃ p, pp' = some p ∧ ∃ c ∈ p.comps, c.moles ≤ 0 ∧ ∃ l, ppElts db c = some l ∧ Lacks db st.tot db.least l s := by
  obtain ⟨s0, r, q, h1, h2, h3, h4⟩ := step_ok h
  rcases h4 with ⟨_, h4⟩ | ⟨ht, h4⟩
  · cases h4
  injection h4 with e1 e2 e3 e4 e5
  have hspec := (solutionCheck_spec hs.least db.masters r.2.2 hs.names).2 ht
  -- the same elements are missing before and after small sums are set to zero
  have hlow : ∀ e, Element db e → (st.tot e ≤ db.least ↔ r.2.2.tot e ≤ db.least) := by
    intro e he
    rw [e1]
    rcases hspec e with ⟨h5, _⟩ | ⟨h5, m, _, _, h6 | ⟨h6, _⟩⟩
    · rw [h5]
    · rw [h5]
      exact ⟨fun _ => le_trans (le_abs_self _) h6, fun _ => hs.least⟩
    · rw [h5]
      exact ⟨fun _ => le_trans (le_of_lt h6) hs.least, fun _ => hs.least⟩
  have hlack : ∀ l, Lacks db st.tot db.least l s ↔ Lacks db r.2.2.tot db.least l s := by
    intro l
    unfold Lacks
    constructor
    · rintro ⟨x, hx, e, k1, k2, k3, k4⟩
      exact ⟨x, hx, e, k1, k2, (hlow e k1).mp k3, k4⟩
    · rintro ⟨x, hx, e, k1, k2, k3, k4⟩
      exact ⟨x, hx, e, k1, k2, (hlow e k1).mpr k3, k4⟩
  obtain ⟨s1, k1, k2⟩ := addSolids_ok h2
  have hss : r.2.1 = none := by
    rcases k2 with ⟨_, j, _⟩ | ⟨t, _, j, _⟩
    · exact j
    · rw [hno] at j; cases j
  unfold checks at h3
  obtain ⟨_, _, h3⟩ := Res.bind_ok h3
  obtain ⟨w, h5, h6⟩ := Res.bind_ok h3
  rw [hss] at h6
  simp only [Res.bind] at h6
  cases h6
  rw [e5, e3]
  simp only [List.append_nil]
  cases hp : r.1 with
  | none =>
    rw [hp] at h5
    cases h5
    simp
  | some p =>
    rw [hp] at h5
    obtain ⟨u, h7, h8⟩ := Res.bind_ok h5
    cases h8
    rcases k1 with ⟨_, j2, _⟩ | ⟨p0, p1, j1, j2, j3⟩
    · rw [hp] at j2; cases j2
    rw [hp] at j2
    cases j2
    obtain ⟨a1, a2⟩ := addSolids_elts j3
    have hlist : ∀ c ∈ p.comps, ∀ e, ppElts db c = some e → ∀ y ∈ e, ∃ n ∈ p.elts, db.first n = db.first y.1 := by
      intro c hc e he y hy
      obtain ⟨c0, hc0, hce⟩ := a2 c hc
      rw [a1]
      exact hl p0 j1 c0 hc0 e (hce ▸ he) y hy
    rw [ppCheck_marks h7 hlist s]
    have hf := ppCheck_ok h7
    have hpp : ∀ c c' : PPComp, (c' = c ∨ Checked c c') → c'.moles = c.moles ∧ ppElts db c' = ppElts db c := by
      rintro c c' (rfl | ⟨_, rfl⟩ | ⟨_, rfl⟩) <;> exact ⟨rfl, rfl⟩
    constructor
    · rintro ⟨c, hc, m1, l, m2, m3⟩
      obtain ⟨c', hc', m4⟩ := forall2_left hf c hc
      obtain ⟨n1, n2⟩ := hpp c c' m4
      exact ⟨u.1, rfl, c', hc', by rw [n1]; exact m1, l, by rw [n2]; exact m2, (hlack l).mpr m3⟩
    · rintro ⟨p', hp', c', hc', m1, l, m2, m3⟩
      cases hp'
      obtain ⟨c, hc, m4⟩ := forall2_right hf c' hc'
      obtain ⟨n1, n2⟩ := hpp c c' m4
      exact ⟨c, hc, by rw [← n1]; exact m1, l, by rw [← n2]; exact m2, (hlack l).mp m3⟩

/-- C183 for solid solutions. Only species of elements are marked that a component without moles lacks; for the first component
of a solid solution that lacks something all of them are (`_partial`: later components are passed over, see
`later_component_forgotten`). -/
theorem ss_marks_partial {db : Db} {tot : Name → ℚ} {ss : List (List SSComp)} {marks : List Name}
    (h : ssCheck db tot ss = .ok marks) (s : Name) :
    (s ∈ marks → ∃ l ∈ ss, ∃ c ∈ l, c.moles ≤ 0 ∧ ∃ e, db.phase c.name = some e ∧ Lacks db tot db.leastSS e s)
      ∧ ∀ pre c post, pre ++ c :: post ∈ ss →
          (∀ d ∈ pre, 0 < d.moles ∨ ∀ e, db.phase d.name = some e → ∀ t, ¬ Lacks db tot db.leastSS e t) →
          (∀ d ∈ pre, ∀ e, db.phase d.name = some e → ∀ x ∈ e, ∀ n, Element db n → db.first x.1 = n → db.first n = n) →
          c.moles ≤ 0 → ∀ e, db.phase c.name = some e → Lacks db tot db.leastSS e s → s ∈ marks := by
  have hm := ssCheck_mem ss marks h
  constructor
  · intro hs
    obtain ⟨l, hl, q, h1, h2⟩ := (hm s).mp hs
    obtain ⟨c, hc, k⟩ := ssCheckFrom_sound _ _ _ h1 s h2
    exact ⟨l, hl, c, hc, k⟩
  · intro pre c post hin hpre hroot hc e he hs
    obtain ⟨q, hq⟩ := ssCheck_each ss marks h _ hin
    refine (hm s).mpr ⟨_, hin, q, hq, ?_⟩
    refine ssCheckFrom_first pre post c (fun d hd => ?_) hc he pre.length 0 (by omega) _ q hq s hs
    rcases hpre d hd with hd' | hd'
    · exact Or.inl hd'
    · refine Or.inr fun e' he' x hx n hn hxn => ?_
      by_contra hle
      have hn' := hn
      obtain ⟨m, hm1, hm2, _⟩ := hn'
      refine hd' e' he' m.species ⟨x, hx, n, hn, hxn, not_lt.mp hle, m, hm1, ?_, hn, rfl⟩
      rw [hm2]
      exact hroot d hd e' he' x hx n hn hxn

/-- C184, what the system has. Hydrogen, oxygen and charge are those of the solution and of the solids; any other element is what
the solution lists and what minerals, except those that react to another formula, and components contain. -/
theorem system_totals (db : Db) (s : Solution) (pp : Option PP) (ss : Option (List (List SSComp))) (e : Name) :
    has (systemTotals db s pp ss) e
      = (if e = "H" then s.h else if e = "O" then s.o else if e = "Charge" then s.cb else 0) + listed s e
        + inSolids db e pp ss := by
  have h0 : has (systemTotals db s pp ss) e
      = has (("O", s.o) :: ("H", s.h) :: ("Charge", s.cb) :: s.totals) e + inSolids db e pp ss := by
    unfold systemTotals
    rw [has_append, has_append, add_assoc]
    congr 1
    unfold inSolids
    congr 1
    · cases pp with
      | none => rfl
      | some p => exact has_pp db p.comps e
    · cases ss with
      | none => rfl
      | some l => exact has_ss db l.flatten e
  rw [h0, has_cons, has_cons, has_cons]
  have h3 : has s.totals e = listed s e := rfl
  rw [h3]
  by_cases hh : e = "H"
  · subst hh
    simp
  · by_cases ho : e = "O"
    · subst ho
      simp
    · by_cases hc : e = "Charge"
      · subst hc
        simp
      · rw [if_neg (Ne.symm ho), if_neg (Ne.symm hh), if_neg (Ne.symm hc), if_neg hh, if_neg ho, if_neg hc]
        ring

/-- C184. The limit for a component of a solid solution is the largest amount of it, up to 1e10 moles, that the elements of the
system suffice for (`_partial`: provided the totals of the system list each of its elements; an element that is not listed
is passed over, see `absent_element_ignored`). -/
theorem limit_is_most_partial {db : Db} {s : Solution} {pp : Option PP} {ss : Option (List (List SSComp))} {c : SSComp} {l : Amounts}
    (hc : db.phase c.name = some l) (hpos : ∀ x ∈ l, 0 < x.2)
    (hin : ∀ x ∈ l, ∃ y ∈ systemTotals db s pp ss, y.1 = db.first x.1) {d : ℚ}
    (h : ssLimit db (systemTotals db s pp ss) c = .ok d) (y : ℚ) :
    y ≤ d ↔ y ≤ 10000000000 ∧ Possible db (has (systemTotals db s pp ss)) l y := by
  unfold ssLimit at h
  rw [hc] at h
  refine deltaMax_ok l hpos (fun x hx m hm => ?_) _ _ h y
  obtain ⟨z, hz, hz'⟩ := hin x hx
  exact ⟨z, hz, hz'.trans (exact_name hm).symm⟩

end Verif.Assemble
