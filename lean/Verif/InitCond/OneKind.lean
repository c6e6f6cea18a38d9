import Verif.InitCond.Props

/-!
# C30: the calls for one kind of reactant
-/

namespace Verif.InitCond

open Verif.OMap Verif.NameDouble Verif.Store Verif.Mapping Verif.Grid Verif.Transfer Verif.Mixing
  Verif.Ranges

theorem fill_loop (v : List Int) (base : Nat) (L : List Nat) (hv : ∀ i ∈ L, i < v.length) :
    ∀ ic : List Int, (∀ i ∈ L, base + i < ic.length) →
    ∃ ic', L.foldlM (fun ic (i : Nat) => do
        let x ← idx v (i : Int)
        if base + i < ic.length then Out.ok (ic.set (base + i) x) else Out.ub) ic = .ok ic' ∧
      ic'.length = ic.length ∧
      (∀ i ∈ L, ic'[base + i]? = v[i]?) ∧
      (∀ m, (∀ i ∈ L, m ≠ base + i) → ic'[m]? = ic[m]?) := by
  induction L with
  | nil => intro ic _; exact ⟨ic, rfl, rfl, by simp, by simp⟩
  | cons i L ih =>
    intro ic hic
    have hi := hv i List.mem_cons_self
    have hx : v[i]? = some v[i] := List.getElem?_eq_getElem hi
    have hlt := hic i List.mem_cons_self
    obtain ⟨ic', h1, h2, h3, h4⟩ := ih (fun i h => hv i (List.mem_cons_of_mem _ h))
      (ic.set (base + i) v[i]) (by intro i h; rw [List.length_set]; exact hic i (List.mem_cons_of_mem _ h))
    refine ⟨ic', ?_, by rw [h2, List.length_set], ?_, ?_⟩
    · rw [List.foldlM_cons, idx_nat hx, Out.ok_bind, if_pos hlt, Out.ok_bind, h1]
    · intro i' hi'
      by_cases hm : i' ∈ L
      · exact h3 i' hm
      · have : i' = i := by
          rcases List.mem_cons.mp hi' with h | h
          · exact h
          · exact absurd h hm
        subst this
        rw [h4 (base + i') (by intro i0 hi0 e; have : i0 = i' := by omega
                               subst this; exact hm hi0), List.getElem?_set_self hlt, hx]
    · intro m hm
      rw [h4 m (fun i h => hm i (List.mem_cons_of_mem _ h)),
        List.getElem?_set_ne (fun e => hm i List.mem_cons_self e.symm)]

/-- C30, first part. For every vector with an entry for each grid cell: the call for the kind at
position `pos` is the general call with the array that has the vector at that kind and `-1`
everywhere else, without second reactants. -/
theorem one_kind_same {α : Type} (ch : Chem α) (pb : Bin α) (st : Settings) (s : MapState)
    (pos : Nat) (v ic : List Int) (w : Nat → Bin α) (hpos : pos < 7) (hv : s.nxyz ≤ v.length)
    (hlen : ic.length = 7 * s.nxyz)
    (hic : ∀ p j, p < 7 → j < s.nxyz →
      ic[p * s.nxyz + j]? = if p = pos then v[j]? else some (-1)) :
    initialOne2Module ch pb st s pos v w =
      initialPhreeqc2Module ch pb st s
        ⟨ic, List.replicate (7 * s.nxyz) (-1), List.replicate (7 * s.nxyz) 1⟩ w := by
  have hle : pos * s.nxyz ≤ 6 * s.nxyz := Nat.mul_le_mul_right _ (by omega)
  obtain ⟨ic', h1, h2, h3, h4⟩ := fill_loop v (pos * s.nxyz) (List.range s.nxyz)
    (fun i h => by have := List.mem_range.mp h; omega) (List.replicate (s.nxyz * 7) (-1))
    (fun i h => by have := List.mem_range.mp h; simp only [List.length_replicate]; omega)
  have e : ic' = ic := by
    apply List.ext_getElem?
    intro m
    by_cases hm : m < 7 * s.nxyz
    · have hn : 0 < s.nxyz := by
        rcases Nat.eq_zero_or_pos s.nxyz with h | h
        · rw [h] at hm; omega
        · exact h
      have hdm : m / s.nxyz * s.nxyz + m % s.nxyz = m := by
        rw [Nat.mul_comm]; exact Nat.div_add_mod _ _
      have hq : m / s.nxyz < 7 := Nat.div_lt_of_lt_mul (by rw [Nat.mul_comm]; exact hm)
      have hr : m % s.nxyz < s.nxyz := Nat.mod_lt _ hn
      have := hic _ _ hq hr
      rw [hdm] at this
      rw [this]
      by_cases hp : m / s.nxyz = pos
      · rw [if_pos hp]
        have := h3 (m % s.nxyz) (List.mem_range.mpr hr)
        rw [← hp, hdm] at this
        exact this
      · rw [if_neg hp, h4 m]
        · rw [List.getElem?_replicate, if_pos (by omega)]
        · intro i hi e
          apply hp
          rw [e]
          have hi := List.mem_range.mp hi
          rw [Nat.mul_comm, Nat.mul_add_div hn, Nat.div_eq_of_lt hi]
          rfl
    · rw [List.getElem?_eq_none (by rw [h2, List.length_replicate]; omega),
        List.getElem?_eq_none (by omega)]
  unfold initialOne2Module fillBlock
  rw [h1, Out.ok_bind, e, Nat.mul_comm s.nxyz 7]

/-- A vector that is too short is read past its end: its size is never checked. -/
theorem one_kind_short {α : Type} (ch : Chem α) (pb : Bin α) (st : Settings) (s : MapState)
    (pos : Nat) (v : List Int) (w : Nat → Bin α) (hpos : pos < 7) (hv : v.length < s.nxyz) :
    initialOne2Module ch pb st s pos v w = .ub := by
  have hle : pos * s.nxyz ≤ 6 * s.nxyz := Nat.mul_le_mul_right _ (by omega)
  have hr : List.range s.nxyz = List.range v.length ++
      v.length :: (List.range (s.nxyz - v.length - 1)).map (fun i => v.length + 1 + i) := by
    have : s.nxyz = v.length + (s.nxyz - v.length - 1 + 1) := by omega
    rw [this, List.range_add, List.range_succ_eq_map]
    simp only [List.map_cons, List.map_map, Nat.add_zero]
    congr 2
    have h2 : v.length + (s.nxyz - v.length - 1 + 1) - v.length - 1 = s.nxyz - v.length - 1 := by omega
    rw [h2]
    apply List.map_congr_left
    intro x _
    simp only [Function.comp_apply]
    omega
  obtain ⟨ic', h1, h2, _, _⟩ := fill_loop v (pos * s.nxyz) (List.range v.length)
    (fun i h => List.mem_range.mp h) (List.replicate (s.nxyz * 7) (-1))
    (fun i h => by have := List.mem_range.mp h; simp only [List.length_replicate]; omega)
  unfold initialOne2Module fillBlock
  rw [hr, List.foldlM_append, h1, Out.ok_bind, List.foldlM_cons]
  have : idx v ((v.length : Nat) : Int) = .ub := by
    unfold idx
    rw [if_neg (by omega)]
    simp
  rw [this]
  rfl

/-- C30, second part, for the reactants of the code. If the vector gives every cell a negative
number or a defined one, the call succeeds, the kind is set in every cell with a number that
is not negative (solutions fill the pore water volume; other reactants are the moles
defined times the volume of the unit), and all else is as it was. -/
theorem one_kind (F : Name → Name) (T : GasType) (g : List Int) (s : MapState) (st : Settings)
    (pb : Bin Entity) (k : Kind) (pos : Nat) (v : List Int) (hk : position k = some pos)
    (hcon : Consistent g s) (hg : g.length = s.nxyz) (hv : v.length = s.nxyz)
    (hpor : st.por.length = s.nxyz) (hsat : st.sat.length = s.nxyz) (hrv : st.rv.length = s.nxyz)
    (hst : Stock F T pb) (hu : ∀ k, st.units k ≤ 2) (h0 : ∀ x ∈ st.sat, 0 ≤ x)
    (hs : ∀ c, c < s.count → Sound s st c)
    (hdef : ∀ n ∈ v, 0 ≤ n → pb k n ≠ none)
    (w : Nat → Bin Entity) (content : Int → Kind → Option Entity)
    (held : HeldByOwners CellKind s.ranges content w) :
    ∃ r content', initialOne2Module real pb st s pos v w = .ok r ∧ r.code = .ok ∧
      HeldByOwners CellKind s.ranges content' r.w ∧
      (∀ (c : Nat) k', c < s.count → CellKind k' → k' ≠ k → content' c k' = content c k') ∧
      ∀ (c j : Nat) n por sat rv, c < s.count → primary s c = some j → v[j]? = some n →
        st.por[j]? = some por → st.sat[j]? = some sat → st.rv[j]? = some rv →
        (n < 0 → content' c k = content c k) ∧
        (0 ≤ n → k = .solution → ∃ s', content' c k = some (.sol s') ∧
          ∀ X, X ∈ extensives ∨ (∃ el, X = fun b => val b.totals el) →
            X s' = rv * por * sat * (pb k n).elim 0 (perVolume X)) ∧
        (0 ≤ n → k ≠ .solution → ∃ r', content' c k = some (.rx r') ∧
          ∀ q φ, Factor por rv (st.units k) φ →
            measure q k r' = φ * (pb k n).elim 0 (amountOf q k)) := by
  have hpos : pos < 7 := by cases k <;> cases hk <;> omega
  have hle : pos * s.nxyz ≤ 6 * s.nxyz := Nat.mul_le_mul_right _ (by omega)
  obtain ⟨ic, -, i2, i3, i4⟩ := fill_loop v (pos * s.nxyz) (List.range s.nxyz)
    (fun i h => by have := List.mem_range.mp h; omega) (List.replicate (s.nxyz * 7) (-1))
    (fun i h => by have := List.mem_range.mp h; simp only [List.length_replicate]; omega)
  have hlen : ic.length = 7 * s.nxyz := by rw [i2, List.length_replicate]; omega
  have hic : ∀ p j, p < 7 → j < s.nxyz →
      ic[p * s.nxyz + j]? = if p = pos then v[j]? else some (-1) := by
    intro p j hp hj
    split
    · rename_i e; subst e; exact i3 j (List.mem_range.mpr hj)
    · rename_i e
      rw [i4, List.getElem?_replicate, if_pos]
      · have := Nat.mul_le_mul_right s.nxyz (show p ≤ 6 by omega); omega
      · intro i hi he
        have hi := List.mem_range.mp hi
        have hn : 0 < s.nxyz := by omega
        have a1 : (p * s.nxyz + j) / s.nxyz = p := by
          rw [Nat.mul_comm, Nat.mul_add_div hn, Nat.div_eq_of_lt hj]; rfl
        have a2 : (pos * s.nxyz + i) / s.nxyz = pos := by
          rw [Nat.mul_comm, Nat.mul_add_div hn, Nat.div_eq_of_lt hi]; rfl
        rw [he, a2] at a1
        exact e a1.symm
  rw [one_kind_same real pb st s pos v ic w hpos (by omega) hlen hic]
  have ent : ∀ k' j n, j < s.nxyz → entry s.nxyz ic k' j = some n →
      (k' = k ∧ v[j]? = some n) ∨ (k' ≠ k ∧ n = -1) := by
    intro k' j n hj he
    obtain ⟨p, hp, he⟩ := Option.bind_eq_some_iff.mp he
    have hp7 : p < 7 := by cases k' <;> cases hp <;> omega
    rw [hic p j hp7 hj] at he
    split at he
    · rename_i e
      subst e
      refine .inl ⟨?_, he⟩
      cases k <;> cases hk <;> cases k' <;> cases hp <;> rfl
    · rename_i e
      refine .inr ⟨?_, by cases he; rfl⟩
      rintro rfl
      rw [hk] at hp
      cases hp
      exact e rfl
  have rep : ∀ {β : Type} (x : β) k' j, j < s.nxyz → position k' ≠ none →
      entry s.nxyz (List.replicate (7 * s.nxyz) x) k' j = some x := by
    intro β x k' j hj hp
    obtain ⟨p, hp⟩ := Option.ne_none_iff_exists'.mp hp
    unfold entry
    rw [hp]
    have hp7 : p < 7 := by cases k' <;> cases hp <;> omega
    have := Nat.mul_le_mul_right s.nxyz (show p ≤ 6 by omega)
    simp only [Option.bind_some]
    rw [List.getElem?_replicate, if_pos (by omega)]
  have rep' : ∀ k' j n, entry s.nxyz (List.replicate (7 * s.nxyz) (-1 : Int)) k' j = some n →
      n = -1 := by
    intro k' j n he
    obtain ⟨p, _, he⟩ := Option.bind_eq_some_iff.mp he
    rw [List.getElem?_replicate] at he
    split at he
    · cases he; rfl
    · cases he
  have R : Ready F T g s st ⟨ic, List.replicate (7 * s.nxyz) (-1), List.replicate (7 * s.nxyz) 1⟩ pb :=
    { con := hcon, len := hg
      sizes := ⟨hlen, by simp, by simp, hpor, hsat, hrv⟩
      stock := hst, units := hu
      fracs := by
        intro f hf
        rw [(List.mem_replicate.mp hf).2]
        exact ⟨by norm_num, le_refl _⟩
      sat := h0 }
  have prim : ∀ c j, c < s.count → primary s c = some j → j < s.nxyz := by
    intro c j hc hj
    obtain ⟨j', h1, h2⟩ := primary_exists R hc
    rw [hj] at h1
    cases h1
    exact h2
  obtain ⟨r, r1, r0, r2, _⟩ := initial_fails_partial F T g s st _ pb R
    (by
      intro c j n _ _ he hn
      have := rep' _ _ _ he
      omega) w
  have r2 : r.code = .ok := by
    rcases r0 with h | h
    · exact h
    · obtain ⟨c, hc, hb | ⟨k', n, ⟨hn, j, hj, he | he⟩, hno⟩⟩ := r2.mp h
      · exact absurd (hs c hc) hb
      · rcases ent k' j n (prim c j hc hj) he with ⟨rfl, hvj⟩ | ⟨_, rfl⟩
        · exact absurd hno (hdef n (List.mem_of_getElem? hvj) hn)
        · omega
      · have := rep' _ _ _ he
        omega
  obtain ⟨content', r3, r4⟩ := initial_amounts F T g s st _ pb R w content held r r1 r2
  refine ⟨r, content', r1, r2, r3, ?_, ?_⟩
  · intro c k' hc hck hne
    obtain ⟨j, hj, hjn⟩ := primary_exists R hc
    have hp' : position k' ≠ none := by
      rcases hck with rfl | rfl | rfl | rfl | rfl | rfl | rfl <;> simp [position]
    obtain ⟨n1, e1⟩ : ∃ n1, entry s.nxyz ic k' j = some n1 := by
      obtain ⟨p, hp⟩ := Option.ne_none_iff_exists'.mp hp'
      have hp7 : p < 7 := by cases k' <;> cases hp <;> omega
      unfold entry
      rw [hp]
      simp only [Option.bind_some]
      have := Nat.mul_le_mul_right s.nxyz (show p ≤ 6 by omega)
      exact ⟨_, List.getElem?_eq_getElem (by omega)⟩
    have hn1 : n1 < 0 := by
      rcases ent k' j n1 hjn e1 with ⟨e, _⟩ | ⟨_, rfl⟩
      · exact absurd e hne
      · omega
    exact (r4 c j k' n1 (-1) 1 _ _ _ hc hj e1 (rep _ _ _ hjn hp') (rep _ _ _ hjn hp')
      (List.getElem?_eq_getElem (by omega)) (List.getElem?_eq_getElem (by omega))
      (List.getElem?_eq_getElem (by omega))).1 hn1
  · intro c j n por sat rv hc hj hvj hp hsx hr
    have hjn := prim c j hc hj
    have hp' : position k ≠ none := by rw [hk]; simp
    have e1 : entry s.nxyz ic k j = some n := by
      unfold entry
      rw [hk]
      simp only [Option.bind_some]
      rw [hic pos j hpos hjn, if_pos rfl, hvj]
    obtain ⟨q1, q2, q3⟩ := r4 c j k n (-1) 1 por sat rv hc hj e1 (rep _ _ _ hjn hp')
      (rep _ _ _ hjn hp') hp hsx hr
    refine ⟨q1, ?_, ?_⟩
    · intro hn hks
      obtain ⟨s', x1, _, x3⟩ := q2 hn hks
      refine ⟨s', x1, fun X hX => ?_⟩
      rw [x3 X hX]; ring
    · intro hn hks
      obtain ⟨r', x1, x2⟩ := q3 hn hks
      refine ⟨r', x1, fun q φ hφ => ?_⟩
      rw [x2 q φ hφ]; ring

end Verif.InitCond
