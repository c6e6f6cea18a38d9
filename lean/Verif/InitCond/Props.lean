import Verif.InitCond.Real

/-!
# C30, C31, C32, C77: initial conditions
-/

namespace Verif.InitCond

open Verif.OMap Verif.NameDouble Verif.Store Verif.Mapping Verif.Grid Verif.Transfer Verif.Mixing
  Verif.Ranges

/-- The conditions on a call: a mapped module, arrays of the right size, definitions with
volume and water, units as the setters allow, fractions between 0 and 1, saturations not
negative. -/
structure Ready (F : Name → Name) (T : GasType) (g : List Int) (s : MapState) (st : Settings)
    (a : Args) (pb : Bin Entity) : Prop where
  con : Consistent g s
  len : g.length = s.nxyz
  sizes : Sizes s st a
  stock : Stock F T pb
  units : ∀ k, st.units k ≤ 2
  fracs : ∀ f ∈ a.fr, 0 ≤ f ∧ f ≤ 1
  sat : ∀ x ∈ st.sat, 0 ≤ x

/-- The second number of kinetics is defined as kinetics exactly when it is defined as a solid
solution: what line 673 takes for granted. -/
def KineticsSecond (s : MapState) (a : Args) (pb : Bin Entity) : Prop :=
  ∀ c j n, c < s.count → primary s c = some j → entry s.nxyz a.ic2 .kinetics j = some n → 0 ≤ n →
    (pb .ssAssemblage n = none ↔ pb .kinetics n = none)

/-- The porosity and volume of the cell are not negative. -/
def Sound (s : MapState) (st : Settings) (c : Nat) : Prop :=
  ∀ j, primary s c = some j → (∀ x, st.por[j]? = some x → 0 ≤ x) ∧ (∀ x, st.rv[j]? = some x → 0 ≤ x)

theorem entry_block {β : Type} (nxyz : Nat) (l : List β) (j : Nat) :
    ∀ b ∈ blocks, entry nxyz l b.kind j = at' nxyz l j b := by
  intro b hb
  simp only [blocks, List.mem_cons, List.not_mem_nil, or_false] at hb
  rcases hb with rfl | rfl | rfl | rfl | rfl | rfl | rfl <;> rfl

section

variable {F : Name → Name} {T : GasType} {g : List Int} {s : MapState} {st : Settings} {a : Args}
  {pb : Bin Entity}

theorem primary_exists (R : Ready F T g s st a pb) {c : Nat} (h : c < s.count) :
    ∃ j, primary s c = some j ∧ j < s.nxyz := by
  have hl : c < s.backward.length := by rw [R.con.back_len]; exact h
  have hc : s.backward[c]? = some s.backward[c] := List.getElem?_eq_getElem hl
  obtain ⟨hne, _, hm⟩ := R.con.back c _ hc
  obtain ⟨j, hj⟩ := Option.ne_none_iff_exists'.mp (fun h => hne (List.head?_eq_none_iff.mp h))
  refine ⟨j, by unfold primary; rw [hc]; exact hj, ?_⟩
  have := (hm j).mp (List.mem_of_head? hj)
  rw [← R.len]
  exact (List.getElem?_eq_some_iff.mp this).1

theorem cell_data (R : Ready F T g s st a pb) (c : Nat) (h : c < s.count) :
    Nonempty (CellData real pb st s a c) := by
  obtain ⟨j, hj, hjn⟩ := primary_exists R h
  have get : ∀ {β : Type} (l : List β) (d : β), l.length = 7 * s.nxyz → ∀ b ∈ blocks,
      at' s.nxyz l j b = some ((at' s.nxyz l j b).getD d) := by
    intro β l d hl b hb
    have hp : b.pos ≤ 6 := by
      have : ∀ b ∈ blocks, b.pos ≤ 6 := by decide
      exact this b hb
    have : b.pos * s.nxyz + j < l.length := by
      have := Nat.mul_le_mul_right s.nxyz hp
      omega
    unfold at'
    rw [List.getElem?_eq_getElem this]
    rfl
  have hp : st.por[j]? = some (st.por[j]'(by rw [R.sizes.por]; exact hjn)) :=
    List.getElem?_eq_getElem _
  have hs : st.sat[j]? = some (st.sat[j]'(by rw [R.sizes.sat]; exact hjn)) :=
    List.getElem?_eq_getElem _
  have hr : st.rv[j]? = some (st.rv[j]'(by rw [R.sizes.rv]; exact hjn)) :=
    List.getElem?_eq_getElem _
  refine ⟨{ j := j, por := _, sat := _, rv := _
            N1 := fun b => (at' s.nxyz a.ic1 j b).getD 0
            N2 := fun b => (at' s.nxyz a.ic2 j b).getD 0
            F := fun b => (at' s.nxyz a.fr j b).getD 0
            hj := hj, hp := hp, hs := hs, hr := hr
            h1 := get a.ic1 0 R.sizes.ic1, h2 := get a.ic2 0 R.sizes.ic2
            hF := get a.fr 0 R.sizes.fr
            hm := ?_ }⟩
  intro h0 h1 b hb hn hmiss
  obtain ⟨hm1, hm2⟩ := (missing_nil _ _ _ _).mp hmiss
  have hf := R.fracs _ (List.mem_of_getElem? (get a.fr 0 R.sizes.fr b hb))
  have hsat := R.sat _ (List.mem_of_getElem? hs)
  by_cases hk : b.kind = .solution
  · have hb' : b.second = .solution := by
      have : ∀ b ∈ blocks, b.kind = .solution → b.second = .solution := by decide
      exact this b hb hk
    rw [hk] at hm1
    rw [hb'] at hm2
    obtain ⟨m, e, x1, x2, _⟩ := solution_spec R.stock _ _ (hm1 hn) hm2 h0 hsat h1 hf.1 hf.2
    refine ⟨some (.sol e), m, .sol e, ?_, ?_, rfl⟩
    · unfold blockMix; rw [if_pos hk]; exact x1
    · rw [hk]; exact x2
  · obtain ⟨m, x1, _⟩ := solidMix_spec (st.units b.kind) _ _ _ _ _ (R.units b.kind)
    have hck : CellKind b.kind := by
      rw [cellKind_iff]
      have hall : ∀ b ∈ blocks, b.kind ∈ toBinKinds := by decide
      exact hall b hb
    obtain ⟨r, x2, _⟩ := realMix_spec R.stock hk hck m
    refine ⟨some (.rx r), m, .rx r, ?_, x2, rfl⟩
    unfold blockMix; rw [if_neg hk]; exact x1

theorem mem_missing (d : CellData real pb st s a c) (k : Kind) (n : Int) :
    (k, n) ∈ blocks.flatMap (fun b => missing pb b (d.N1 b) (d.N2 b)) ↔
      ∃ b ∈ blocks, b.kind = k ∧ 0 ≤ n ∧ ((d.N1 b = n ∧ pb b.kind n = none) ∨
        (d.N2 b = n ∧ pb b.second n = none)) := by
  rw [List.mem_flatMap]
  constructor
  · rintro ⟨b, hb, hm⟩
    unfold missing at hm
    rcases List.mem_append.mp hm with h | h
    · split at h
      · rename_i hc
        obtain ⟨rfl, rfl⟩ := Prod.mk.inj (List.mem_singleton.mp h)
        exact ⟨b, hb, rfl, hc.1, .inl ⟨rfl, hc.2⟩⟩
      · cases h
    · split at h
      · rename_i hc
        obtain ⟨rfl, rfl⟩ := Prod.mk.inj (List.mem_singleton.mp h)
        exact ⟨b, hb, rfl, hc.1, .inr ⟨rfl, hc.2⟩⟩
      · cases h
  · rintro ⟨b, hb, rfl, h0, ⟨rfl, hn⟩ | ⟨rfl, hn⟩⟩
    · refine ⟨b, hb, List.mem_append.mpr (.inl ?_)⟩
      rw [if_pos ⟨h0, hn⟩]; simp
    · refine ⟨b, hb, List.mem_append.mpr (.inr ?_)⟩
      rw [if_pos ⟨h0, hn⟩]; simp

/-- The undefined numbers of a cell are those it refers to. -/
theorem missing_refers (hkin : KineticsSecond s a pb) {c : Nat} (hc : c < s.count)
    (d : CellData real pb st s a c) (k : Kind) (n : Int) :
    (k, n) ∈ blocks.flatMap (fun b => missing pb b (d.N1 b) (d.N2 b)) ↔
      Refers s a c k n ∧ pb k n = none := by
  rw [mem_missing]
  constructor
  · rintro ⟨b, hb, rfl, h0, h⟩
    have e1 := entry_block s.nxyz a.ic1 d.j b hb
    have e2 := entry_block s.nxyz a.ic2 d.j b hb
    rw [d.h1 b hb] at e1
    rw [d.h2 b hb] at e2
    rcases h with ⟨rfl, hn⟩ | ⟨rfl, hn⟩
    · exact ⟨⟨h0, d.j, d.hj, .inl e1⟩, hn⟩
    · refine ⟨⟨h0, d.j, d.hj, .inr e2⟩, ?_⟩
      by_cases hk : b.kind = .kinetics
      · have hs : b.second = .ssAssemblage := by
          have : ∀ b ∈ blocks, b.kind = .kinetics → b.second = .ssAssemblage := by decide
          exact this b hb hk
        rw [hs] at hn
        rw [hk] at e2 ⊢
        exact (hkin c d.j _ hc d.hj e2 h0).mp hn
      · have hs : b.second = b.kind := by
          have : ∀ b ∈ blocks, b.kind ≠ .kinetics → b.second = b.kind := by decide
          exact this b hb hk
        rwa [hs] at hn
  · rintro ⟨⟨h0, j, hj, h⟩, hn⟩
    have hj' : j = d.j := by rw [d.hj] at hj; exact (Option.some.inj hj).symm
    subst hj'
    have hck : CellKind k := by
      have : position k ≠ none := by
        rcases h with h | h <;> (intro e; unfold entry at h; rw [e] at h; cases h)
      cases k <;> first | exact absurd rfl this | simp [CellKind]
    obtain ⟨b, hb, rfl⟩ := cellKind_block hck
    refine ⟨b, hb, rfl, h0, ?_⟩
    rw [entry_block _ _ _ b hb, entry_block _ _ _ b hb, d.h1 b hb, d.h2 b hb] at h
    rcases h with h | h
    · exact .inl ⟨Option.some.inj h, hn⟩
    · refine .inr ⟨Option.some.inj h, ?_⟩
      by_cases hk : b.kind = .kinetics
      · have hs : b.second = .ssAssemblage := by
          have : ∀ b ∈ blocks, b.kind = .kinetics → b.second = .ssAssemblage := by decide
          exact this b hb hk
        rw [hs]
        have e2 := entry_block s.nxyz a.ic2 d.j b hb
        rw [d.h2 b hb, h, hk] at e2
        rw [hk] at hn
        exact (hkin c d.j n hc d.hj e2 h0).mpr hn
      · have hs : b.second = b.kind := by
          have : ∀ b ∈ blocks, b.kind ≠ .kinetics → b.second = b.kind := by decide
          exact this b hb hk
        rwa [hs]

theorem sound_iff {c : Nat} (d : CellData real pb st s a c) :
    Sound s st c ↔ 0 ≤ d.por ∧ 0 ≤ d.rv := by
  constructor
  · intro h
    obtain ⟨h1, h2⟩ := h d.j d.hj
    exact ⟨h1 _ d.hp, h2 _ d.hr⟩
  · rintro ⟨h1, h2⟩ j hj
    have : j = d.j := by rw [d.hj] at hj; exact (Option.some.inj hj).symm
    subst this
    constructor
    · intro x hx; rw [d.hp] at hx; cases hx; exact h1
    · intro x hx; rw [d.hr] at hx; cases hx; exact h2

theorem bad_iff (hkin : KineticsSecond s a pb) {c : Nat} (hc : c < s.count)
    (d : CellData real pb st s a c) :
    d.bad ↔ ¬ Sound s st c ∨ ∃ k n, Refers s a c k n ∧ pb k n = none := by
  rw [sound_iff d]
  unfold CellData.bad
  constructor
  · rintro (h | h | h)
    · exact .inl (fun x => absurd x.1 (not_le.mpr h))
    · exact .inl (fun x => absurd x.2 (not_le.mpr h))
    · obtain ⟨⟨k, n⟩, hp⟩ := List.exists_mem_of_ne_nil _ h
      exact .inr ⟨k, n, (missing_refers hkin hc d k n).mp hp⟩
  · rintro (h | ⟨k, n, h⟩)
    · by_cases hp : 0 ≤ d.por
      · exact .inr (.inl (not_le.mp (fun hr => h ⟨hp, hr⟩)))
      · exact .inl (not_le.mp hp)
    · exact .inr (.inr (List.ne_nil_of_mem ((missing_refers hkin hc d k n).mpr h)))

end

/-- C32, what holds. The call never has undefined behaviour under the conditions; it fails
exactly when a cell refers to an undefined number or has a negative porosity or volume, names
exactly the undefined numbers (of the cells with sound data), and a failing call leaves the
cells of all workers but the first, and every cell that has an error, as they were.
What the property claims beyond this is false: `initial_fails_violated`,
`initial_atomic_violated`. -/
theorem initial_fails_partial (F : Name → Name) (T : GasType) (g : List Int) (s : MapState)
    (st : Settings) (a : Args) (pb : Bin Entity) (R : Ready F T g s st a pb)
    (hkin : KineticsSecond s a pb) (w : Nat → Bin Entity) :
    ∃ r, initialPhreeqc2Module real pb st s a w = .ok r ∧ (r.code = .ok ∨ r.code = .fail) ∧
      (r.code = .fail ↔ ∃ c, c < s.count ∧
        (¬ Sound s st c ∨ ∃ k n, Refers s a c k n ∧ pb k n = none)) ∧
      (r.code = .fail →
        (∀ k n, (k, n) ∈ r.errs ↔ ∃ c, c < s.count ∧ Sound s st c ∧ Refers s a c k n ∧
          pb k n = none) ∧
        (∀ n, n ≠ 0 → r.w n = w n) ∧
        (∀ c : Nat, c < s.count →
          (¬ Sound s st c ∨ ∃ k n, Refers s a c k n ∧ pb k n = none) →
          ∀ k, r.w 0 k c = w 0 k c) ∧
        (∀ k (m : Int), (∀ c : Nat, c < s.count → m ≠ c) → r.w 0 k m = w 0 k m)) := by
  have d : ∀ c (h : c < s.count), CellData real pb st s a c :=
    fun c h => Classical.choice (cell_data R c h)
  obtain ⟨r, h1, h2, h3, h4, h5⟩ := run_spec real pb st s a R.con R.sizes d w
  have hb := fun c (h : c < s.count) => bad_iff hkin h (d c h)
  refine ⟨r, h1, ?_, ⟨?_, ?_⟩, ?_⟩
  · by_cases hx : ∃ c, ∃ h : c < s.count, (d c h).bad
    · exact .inr (h2 hx)
    · exact .inl (h3 (fun c h hb => hx ⟨c, h, hb⟩))
  · intro hf
    by_contra hno
    have := h3 (fun c h hbad => hno ⟨c, h, (hb c h).mp hbad⟩)
    rw [hf] at this
    cases this
  · rintro ⟨c, hc, h⟩
    exact h2 ⟨c, hc, (hb c hc).mpr h⟩
  · intro hf
    obtain ⟨k1, k2, k3, k4⟩ := h4 hf
    refine ⟨?_, k2, ?_, k3⟩
    · intro k n
      rw [k1]
      constructor
      · rintro ⟨c, hc, hm⟩
        unfold CellData.errs at hm
        split at hm
        · cases hm
        · rename_i hs
          refine ⟨c, hc, (sound_iff (d c hc)).mpr ?_, (missing_refers hkin hc (d c hc) k n).mp hm⟩
          simp only [not_or, not_lt] at hs
          exact hs
      · rintro ⟨c, hc, hs, hm⟩
        refine ⟨c, hc, ?_⟩
        unfold CellData.errs
        have := (sound_iff (d c hc)).mp hs
        rw [if_neg]
        · exact (missing_refers hkin hc (d c hc) k n).mpr hm
        · simp only [not_or, not_lt]; exact this
    · intro c hc h k
      have := (k4 c hc).keep ((hb c hc).mpr h)
      exact congrFun this k

/-- C77 and C31. After a call that succeeds every cell, held by its owner, has for each kind
* what it had before, if the first number is negative;
* a solution made of the fractions `f` and `1 - f` by volume, filling porosity times saturation
  times representative volume (C31: with two solutions the volume is exactly that), every
  element in proportion;
* for the other kinds the fractions `f` and `1 - f` of the moles defined, times the
  volume of the unit: representative volume, water-filled or rock volume.
When a call succeeds: `initial_fails_partial`. -/
theorem initial_amounts (F : Name → Name) (T : GasType) (g : List Int) (s : MapState)
    (st : Settings) (a : Args) (pb : Bin Entity) (R : Ready F T g s st a pb)
    (w : Nat → Bin Entity) (content : Int → Kind → Option Entity)
    (held : HeldByOwners CellKind s.ranges content w) (r : Result Entity)
    (hrun : initialPhreeqc2Module real pb st s a w = .ok r) (hok : r.code = .ok) :
    ∃ content', HeldByOwners CellKind s.ranges content' r.w ∧
      ∀ (c j : Nat) k n1 n2 f por sat rv, c < s.count → primary s c = some j →
        entry s.nxyz a.ic1 k j = some n1 → entry s.nxyz a.ic2 k j = some n2 →
        entry s.nxyz a.fr k j = some f → st.por[j]? = some por → st.sat[j]? = some sat →
        st.rv[j]? = some rv →
        (n1 < 0 → content' c k = content c k) ∧
        (0 ≤ n1 → k = .solution → ∃ s', content' c k = some (.sol s') ∧
          (0 ≤ n2 → s'.solnVol = rv * por * sat) ∧
          ∀ X, X ∈ extensives ∨ (∃ el, X = fun b => val b.totals el) →
            X s' = rv * por * sat * (f * (pb k n1).elim 0 (perVolume X) +
              (1 - f) * second (pb k) (perVolume X) n2)) ∧
        (0 ≤ n1 → k ≠ .solution → ∃ r', content' c k = some (.rx r') ∧
          ∀ q φ, Factor por rv (st.units k) φ →
            measure q k r' = φ * (f * (pb k n1).elim 0 (amountOf q k) +
              (1 - f) * second (pb k) (amountOf q k) n2)) := by
  have d : ∀ c (h : c < s.count), CellData real pb st s a c :=
    fun c h => Classical.choice (cell_data R c h)
  obtain ⟨r0, h1, h2, h3, h4, h5⟩ := run_spec real pb st s a R.con R.sizes d w
  rw [hrun] at h1
  obtain rfl : r = r0 := by cases h1; rfl
  have hgood : ∀ c (h : c < s.count), ¬ (d c h).bad := by
    intro c h hb
    have := h2 ⟨c, h, hb⟩
    rw [hok] at this
    cases this
  obtain ⟨content', k1, k2⟩ := h5 hok content held
  refine ⟨content', k1, ?_⟩
  intro c j k n1 n2 f por sat rv hc hj e1 e2 eF hpor hsat hrv
  have A := k2 c hc
  have hck : CellKind k := by
    have : position k ≠ none := by
      intro e; unfold entry at e1; rw [e] at e1; cases e1
    cases k <;> first | exact absurd rfl this | simp [CellKind]
  obtain ⟨b, hb, rfl⟩ := cellKind_block hck
  have hj' : j = (d c hc).j := by rw [(d c hc).hj] at hj; exact (Option.some.inj hj).symm
  rw [hj', entry_block _ _ _ b hb, (d c hc).h1 b hb] at e1
  rw [hj', entry_block _ _ _ b hb, (d c hc).h2 b hb] at e2
  rw [hj', entry_block _ _ _ b hb, (d c hc).hF b hb] at eF
  rw [hj', (d c hc).hp] at hpor
  rw [hj', (d c hc).hs] at hsat
  rw [hj', (d c hc).hr] at hrv
  obtain rfl := Option.some.inj e1
  obtain rfl := Option.some.inj e2
  obtain rfl := Option.some.inj eF
  obtain rfl := Option.some.inj hpor
  obtain rfl := Option.some.inj hsat
  obtain rfl := Option.some.inj hrv
  have hall : ∀ b ∈ blocks, ∀ b' ∈ blocks, b'.kind = b.kind → b' = b := by decide
  have hsnd : 0 ≤ (d c hc).por ∧ 0 ≤ (d c hc).rv :=
    ⟨not_lt.mp (fun h => hgood c hc (.inl h)), not_lt.mp (fun h => hgood c hc (.inr (.inl h)))⟩
  refine ⟨?_, ?_, ?_⟩
  · intro hn
    exact A.other _ (fun b' hb' e => by rw [hall b hb b' hb' e]; exact hn)
  · intro hn hk
    obtain ⟨m, e, m1, m2, m3⟩ := A.made (hgood c hc) b hb hn
    have hmiss : missing pb b ((d c hc).N1 b) ((d c hc).N2 b) = [] := by
      by_contra hne
      refine hgood c hc (.inr (.inr ?_))
      intro h
      exact hne (List.flatMap_eq_nil_iff.mp h b hb)
    obtain ⟨q1, q2⟩ := (missing_nil _ _ _ _).mp hmiss
    have hb' : b.second = .solution := by
      have : ∀ b ∈ blocks, b.kind = .solution → b.second = .solution := by decide
      exact this b hb hk
    rw [hk] at q1
    rw [hb'] at q2
    have hfr := R.fracs _ (List.mem_of_getElem? ((d c hc).hF b hb))
    obtain ⟨m', s', x1, x2, x3⟩ := solution_spec R.stock _ _ (q1 hn) q2 hsnd.1
      (R.sat _ (List.mem_of_getElem? (d c hc).hs)) hsnd.2 hfr.1 hfr.2
    unfold blockMix at m1
    rw [if_pos hk, x1] at m1
    cases m1
    rw [hk] at m2 m3 ⊢
    have m2 : realMix .solution (pb .solution) m = .ok e := m2
    rw [x2] at m2
    cases m2
    refine ⟨s', m3, ?_, x3⟩
    intro hn2
    rw [x3 Solution.solnVol (.inl (by simp [extensives]))]
    have one : ∀ n : Int, pb .solution n ≠ none →
        (pb .solution n).elim 0 (perVolume Solution.solnVol) = 1 := by
      intro n hne
      obtain ⟨x, hx⟩ := Option.ne_none_iff_exists'.mp hne
      obtain ⟨sx, rfl, v, _⟩ := R.stock.sols n x hx
      rw [hx]
      simp only [Option.elim_some, perVolume, memberOf]
      exact div_self (ne_of_gt v)
    unfold second
    rw [if_pos hn2, one _ (q1 hn), one _ (q2 hn2)]
    ring
  · intro hn hk
    obtain ⟨m, e, m1, m2, m3⟩ := A.made (hgood c hc) b hb hn
    obtain ⟨m', x1, x2⟩ := solidMix_spec (st.units b.kind) (d c hc).por (d c hc).rv ((d c hc).N1 b)
      ((d c hc).N2 b) ((d c hc).F b) (R.units b.kind)
    unfold blockMix at m1
    rw [if_neg hk, x1] at m1
    cases m1
    obtain ⟨r', y1, y2⟩ := realMix_spec R.stock hk hck m
    have m2 : realMix b.kind (pb b.kind) m = .ok e := m2
    rw [y1] at m2
    cases m2
    refine ⟨r', m3, ?_⟩
    intro q φ hφ
    rw [y2, x2 _ _ _ hφ]

end Verif.InitCond
