import Verif.CInit.Model
import Verif.CBoundary.Props
import Verif.InitCond.Cases
import Verif.CellCopy.Props
import Verif.Species.BoundaryProps

/-! # Initial conditions in C -/

namespace Verif.CInit

open Verif.OMap Verif.NameDouble Verif.Setters Verif.CTables Verif.Store Verif.Mapping Verif.Transfer Verif.Mixing
  Verif.InitCond Verif.CBoundary

/-! ## Specification -/

/-- The entry of an array that may be left out; `d` stands for all its values then. -/
def Given {β : Type} (nxyz : Nat) (d : β) (o : Option (List β)) (k : Kind) (j : Nat) (x : β) : Prop :=
  match o with
  | none => x = d
  | some l => entry nxyz l k j = some x

/-- Cell `c` refers to reactant `n` of kind `k`. -/
def Names (s : MapState) (l1 : List Int) (i2 : Option (List Int)) (c : Nat) (k : Kind) (n : Int) : Prop :=
  0 ≤ n ∧ ∃ j, primary s c = some j ∧ (entry s.nxyz l1 k j = some n ∨ Given s.nxyz (-1) i2 k j n)

/-- The conditions on a call: a mapped module, a grid small enough for `int`, arrays that are long enough, and the conditions of the
class. -/
structure CReady (F : Name → Name) (T : GasType) (g : List Int) (m : Inst Entity) (l1 : List Int)
    (i2 : Option (List Int)) (f : Option (List ℚ)) : Prop where
  con : Consistent g m.s
  len : g.length = m.s.nxyz
  fits : (m.s.nxyz : Int) * 7 ≤ intMax
  first : 7 * m.s.nxyz ≤ l1.length
  second : ∀ l, i2 = some l → 7 * m.s.nxyz ≤ l.length
  frac : ∀ l, f = some l → 7 * m.s.nxyz ≤ l.length
  fracs : ∀ l, f = some l → ∀ (i : Nat) x, i < 7 * m.s.nxyz → l[i]? = some x → 0 ≤ x ∧ x ≤ 1
  por : m.st.por.length = m.s.nxyz
  sat : m.st.sat.length = m.s.nxyz
  rv : m.st.rv.length = m.s.nxyz
  stock : Stock F T m.pb
  units : ∀ k, m.st.units k ≤ 2
  sat0 : ∀ x ∈ m.st.sat, 0 ≤ x

/-- What line 673 of the class takes for granted (`InitCond.KineticsSecond`). -/
def KineticsDefined (m : Inst Entity) (i2 : Option (List Int)) : Prop :=
  ∀ c j n, c < m.s.count → primary m.s c = some j → Given m.s.nxyz (-1) i2 .kinetics j n → 0 ≤ n →
    (m.pb .ssAssemblage n = none ↔ m.pb .kinetics n = none)

/-! ## Lemmas -/

/-- The vector made of an array that may be left out. -/
def vec {β : Type} (n : Nat) (d : β) : Option (List β) → List β
  | none => List.replicate n d
  | some l => l.take n

theorem copyOver_ok {β : Type} {n : Nat} {d : β} {o : Option (List β)} (h0 : 0 < n) (hm : n ≤ maxSize)
    (ho : ∀ l, o = some l → n ≤ l.length) : copyOver (n : Int) d o = .ok (vec n d o) := by
  cases o with
  | none =>
    have e : resizeInt (n : Int) = .ok n := by
      unfold resizeInt
      have : ¬ (n : Int) < 0 := by omega
      simp only [this, if_false, Int.toNat_natCast]
      rw [if_neg (by omega)]
    unfold copyOver
    dsimp only
    rw [e, Out.ok_bind]
    rfl
  | some l => exact copyIn_ok h0 hm (ho l rfl)

theorem vec_length {β : Type} {n : Nat} {d : β} {o : Option (List β)} (ho : ∀ l, o = some l → n ≤ l.length) :
    (vec n d o).length = n := by
  cases o with
  | none => simp [vec]
  | some l => have := ho l rfl; simp only [vec, List.length_take]; omega

theorem position_le {k : Kind} {p : Nat} (h : position k = some p) : p ≤ 6 := by
  cases k <;> simp only [position, Option.some.injEq, reduceCtorEq] at h <;> omega

theorem entry_take {β : Type} {nxyz j : Nat} (l : List β) (k : Kind) (hj : j < nxyz) :
    entry nxyz (l.take (7 * nxyz)) k j = entry nxyz l k j := by
  unfold entry
  cases hp : position k with
  | none => rfl
  | some p =>
    have := Nat.mul_le_mul_right nxyz (position_le hp)
    simp only [Option.bind_some]
    rw [List.getElem?_take, if_pos (by omega)]

theorem entry_vec {β : Type} {nxyz j : Nat} (d : β) (o : Option (List β)) (k : Kind) (hj : j < nxyz) (x : β) :
    entry nxyz (vec (7 * nxyz) d o) k j = some x ↔ position k ≠ none ∧ Given nxyz d o k j x := by
  cases o with
  | none =>
    unfold entry vec Given
    cases hp : position k with
    | none => simp
    | some p =>
      have := Nat.mul_le_mul_right nxyz (position_le hp)
      simp only [Option.bind_some, List.getElem?_replicate]
      rw [if_pos (by omega)]
      simp [eq_comm]
  | some l =>
    unfold vec Given
    dsimp only
    rw [entry_take l k hj]
    constructor
    · intro h
      refine ⟨fun e => ?_, h⟩
      unfold entry at h
      rw [e] at h
      cases h
    · exact fun h => h.2

section

variable {F : Name → Name} {T : GasType} {g : List Int} {m : Inst Entity} {l1 : List Int}
  {i2 : Option (List Int)} {f : Option (List ℚ)}

/-- The arguments the class gets. -/
def argsOf (nxyz : Nat) (l1 : List Int) (i2 : Option (List Int)) (f : Option (List ℚ)) : Args :=
  ⟨l1.take (7 * nxyz), vec (7 * nxyz) (-1) i2, vec (7 * nxyz) 1 f⟩

theorem nxyz_pos (R : CReady F T g m l1 i2 f) : 0 < m.s.nxyz := by
  rw [← R.len]
  exact List.length_pos_of_mem R.con.count_max.2

theorem ready_of (R : CReady F T g m l1 i2 f) : Ready F T g m.s m.st (argsOf m.s.nxyz l1 i2 f) m.pb where
  con := R.con
  len := R.len
  sizes := ⟨by have := R.first; simp only [argsOf, List.length_take]; omega, vec_length R.second,
    vec_length R.frac, R.por, R.sat, R.rv⟩
  stock := R.stock
  units := R.units
  fracs := by
    intro x hx
    cases hf : f with
    | none =>
      rw [hf] at hx
      rw [(List.mem_replicate.mp hx).2]
      exact ⟨by norm_num, le_refl _⟩
    | some l =>
      rw [hf] at hx
      obtain ⟨i, hi⟩ := List.mem_iff_getElem?.mp hx
      rw [show (argsOf m.s.nxyz l1 i2 (some l)).fr = l.take (7 * m.s.nxyz) from rfl, List.getElem?_take] at hi
      split at hi
      · exact R.fracs l hf i x (by assumption) hi
      · cases hi
  sat := R.sat0

theorem initial_eq (R : CReady F T g m l1 i2 f) (w : Nat → Bin Entity) :
    initial real (some m) (some l1) i2 f w =
      initialPhreeqc2Module real m.pb m.st m.s (argsOf m.s.nxyz l1 i2 f) w := by
  have h0 := nxyz_pos R
  have hf := R.fits
  have e : mulInt (m.s.nxyz : Int) 7 = .ok ((7 * m.s.nxyz : Nat) : Int) := by
    unfold mulInt
    rw [if_pos ⟨by unfold intMax; omega, hf⟩]
    congr 1
    omega
  have hm : 7 * m.s.nxyz ≤ maxSize := by unfold maxSize; unfold intMax at hf; omega
  unfold initial
  dsimp only
  rw [e, Out.ok_bind, copyIn_ok (by omega) hm R.first, Out.ok_bind, copyOver_ok (by omega) hm R.second,
    Out.ok_bind, copyOver_ok (by omega) hm R.frac, Out.ok_bind]
  rfl

theorem names_iff (R : CReady F T g m l1 i2 f) {c : Nat} (hc : c < m.s.count) (k : Kind) (n : Int) :
    Refers m.s (argsOf m.s.nxyz l1 i2 f) c k n ↔ Names m.s l1 i2 c k n := by
  obtain ⟨j, hj, hjn⟩ := primary_exists (ready_of R) hc
  unfold Refers Names
  refine and_congr_right fun h0 => ?_
  constructor
  · rintro ⟨j', hj', h⟩
    rw [hj] at hj'; cases hj'
    refine ⟨j, hj, ?_⟩
    rcases h with h | h
    · exact .inl (by rw [← entry_take l1 k hjn]; exact h)
    · exact .inr ((entry_vec (-1) i2 k hjn n).mp h).2
  · rintro ⟨j', hj', h⟩
    rw [hj] at hj'; cases hj'
    refine ⟨j, hj, ?_⟩
    rcases h with h | h
    · exact .inl (by show entry _ (l1.take _) k j = _; rw [entry_take l1 k hjn]; exact h)
    · refine .inr ((entry_vec (-1) i2 k hjn n).mpr ⟨?_, h⟩)
      intro e
      cases i2 with
      | none => have h : n = -1 := h; omega
      | some l =>
        have h : entry m.s.nxyz l k j = some n := h
        unfold entry at h
        rw [e] at h
        cases h

end

/-! ## Theorems -/

/-- **C204, part.** `RM_InitialPhreeqc2Module` on arrays with at least 7 values for each grid cell: the call never has undefined
behaviour and fails exactly when a cell names an undefined reactant or has a negative porosity or volume. When it
succeeds every cell keeps a kind whose first number is negative, and gets otherwise the mixture of the two reactants with the fraction of the caller.
A second array that is null means no second reactant, and fractions that are null mean 1.

Missing: what `InitCond.initial_fails_partial` leaves out, and a grid of more than `INT_MAX / 7` cells (`initial_large`). -/
theorem initial_partial (F : Name → Name) (T : GasType) (g : List Int) (m : Inst Entity) (l1 : List Int)
    (i2 : Option (List Int)) (f : Option (List ℚ)) (R : CReady F T g m l1 i2 f) (hkin : KineticsDefined m i2)
    (w : Nat → Bin Entity) :
    ∃ r, initial real (some m) (some l1) i2 f w = .ok r ∧ (r.code = .ok ∨ r.code = .fail) ∧
      (r.code = .fail ↔ ∃ c, c < m.s.count ∧
        (¬ Sound m.s m.st c ∨ ∃ k n, Names m.s l1 i2 c k n ∧ m.pb k n = none)) ∧
      (r.code = .ok → ∀ content, HeldByOwners CellKind m.s.ranges content w →
        ∃ content', HeldByOwners CellKind m.s.ranges content' r.w ∧
          ∀ (c j : Nat) k n1 n2 x por sat rv, c < m.s.count → primary m.s c = some j →
            entry m.s.nxyz l1 k j = some n1 → Given m.s.nxyz (-1) i2 k j n2 → Given m.s.nxyz 1 f k j x →
            m.st.por[j]? = some por → m.st.sat[j]? = some sat → m.st.rv[j]? = some rv →
            (n1 < 0 → content' c k = content c k) ∧
            (0 ≤ n1 → k = .solution → ∃ s', content' c k = some (.sol s') ∧
              (0 ≤ n2 → s'.solnVol = rv * por * sat) ∧
              ∀ X, X ∈ extensives ∨ (∃ el, X = fun b => val b.totals el) →
                X s' = rv * por * sat * (x * (m.pb k n1).elim 0 (perVolume X) +
                  (1 - x) * InitCond.second (m.pb k) (perVolume X) n2)) ∧
            (0 ≤ n1 → k ≠ .solution → ∃ r', content' c k = some (.rx r') ∧
              ∀ q φ, Factor por rv (m.st.units k) φ →
                measure q k r' = φ * (x * (m.pb k n1).elim 0 (amountOf q k) +
                  (1 - x) * InitCond.second (m.pb k) (amountOf q k) n2))) := by
  have R' := ready_of R
  have hk : KineticsSecond m.s (argsOf m.s.nxyz l1 i2 f) m.pb := by
    intro c j n hc hj he hn
    obtain ⟨j', hj', hjn⟩ := primary_exists R' hc
    rw [hj] at hj'; cases hj'
    exact hkin c j n hc hj ((entry_vec (-1) i2 .kinetics hjn n).mp he).2 hn
  obtain ⟨r, h1, h2, h3, _⟩ := initial_fails_partial F T g m.s m.st _ m.pb R' hk w
  refine ⟨r, by rw [initial_eq R, h1], h2, ?_, ?_⟩
  · rw [h3]
    constructor
    · rintro ⟨c, hc, h⟩
      refine ⟨c, hc, h.imp_right ?_⟩
      rintro ⟨k, n, hr, hn⟩
      exact ⟨k, n, (names_iff R hc k n).mp hr, hn⟩
    · rintro ⟨c, hc, h⟩
      refine ⟨c, hc, h.imp_right ?_⟩
      rintro ⟨k, n, hr, hn⟩
      exact ⟨k, n, (names_iff R hc k n).mpr hr, hn⟩
  · intro hok content hh
    obtain ⟨content', a, b⟩ := initial_amounts F T g m.s m.st _ m.pb R' w content hh r h1 hok
    refine ⟨content', a, ?_⟩
    intro c j k n1 n2 x por sat rv hc hj e1 e2 ef hp hs hr
    obtain ⟨j', hj', hjn⟩ := primary_exists R' hc
    rw [hj] at hj'; cases hj'
    have hpos : position k ≠ none := by
      intro e
      unfold entry at e1
      rw [e] at e1
      cases e1
    exact b c j k n1 n2 x por sat rv hc hj
      (by show entry _ (l1.take _) k j = _; rw [entry_take l1 k hjn]; exact e1)
      ((entry_vec (-1) i2 k hjn n2).mpr ⟨hpos, e2⟩) ((entry_vec 1 f k hjn x).mpr ⟨hpos, ef⟩) hp hs hr

/-- **C204, C205.** Without instance or without the array of numbers the calls say so and change nothing. -/
theorem initial_refused {α : Type} (ch : Chem α) (i1 i2 : Option (List Int)) (f : Option (List ℚ)) (n dim : Int)
    (w : Nat → Bin α) :
    initial ch none i1 i2 f w = .ok ⟨.badInstance, [], w⟩ ∧ cell ch none n i1 dim w = .ok (.badInstance, w) ∧
    ∀ m, initial ch (some m) none i2 f w = .ok ⟨.invalidArg, [], w⟩ ∧
      cell ch (some m) n none dim w = .ok (.invalidArg, w) :=
  ⟨rfl, rfl, fun _ => ⟨rfl, rfl⟩⟩

/-- **C204, violated.** A grid of more than `INT_MAX / 7` cells: the product of the sizes overflows (as it does in the size check of the class,
`/repo/src/PhreeqcRM.cpp:6246`, which `Verif.InitCond` takes as exact). -/
theorem initial_large {α : Type} (ch : Chem α) (m : Inst α) (h : intMax < (m.s.nxyz : Int) * 7) (l1 : List Int)
    (i2 : Option (List Int)) (f : Option (List ℚ)) (w : Nat → Bin α) :
    initial ch (some m) (some l1) i2 f w = .ub := by
  have e : mulInt (m.s.nxyz : Int) 7 = .ub := by
    unfold mulInt
    rw [if_neg (by omega)]
  unfold initial
  dsimp only
  rw [e, Out.ub_bind]

/-- **C205, part.** `RM_InitialPhreeqcCell2Module` with a positive number of grid cells in range: the reaction cells of the first `dim`
grid cells of the array get the cell of the InitialPhreeqc instance, the others keep everything, whatever the array holds further on.

Missing: what `CellCopy.cell_copied_partial` leaves out, and a number of cells that is not positive (`cell_none`). -/
theorem cell_partial {F : Name → Name} {T : GasType} {g : List Int} {m : Inst Entity}
    (R : CellCopy.Ready F T g m.s m.st m.pb) (hk : CellCopy.KeysOf m.pb m.keys) (n : Int) (cells : List Int)
    (dim : Nat) (h0 : 0 < dim) (hm : dim ≤ maxSize) (hd : dim ≤ cells.length)
    (hcells : ∀ (i : Nat) x, i < dim → cells[i]? = some x → 0 ≤ x ∧ x < m.s.nxyz) (w : Nat → Bin Entity) :
    ((¬ ∃ p, CellCopy.Chosen m.pb n p) → cell real (some m) n (some cells) dim w = .ok (.invalidArg, w)) ∧
    ∀ p, CellCopy.Chosen m.pb n p →
      ∃ w', cell real (some m) n (some cells) dim w = .ok (.ok, w') ∧
        ∀ content, HeldByOwners CellKind m.s.ranges content w → ∃ content',
          HeldByOwners CellKind m.s.ranges content' w' ∧
          (∀ (c : Nat), c < m.s.count →
            (∀ j i : Nat, primary m.s c = some j → i < dim → cells[i]? ≠ some (j : Int)) →
            ∀ k, content' c k = content c k) ∧
          (∀ (c j i : Nat), c < m.s.count → primary m.s c = some j → i < dim → cells[i]? = some (j : Int) →
            CellCopy.CopiedAt m.pb p m.st j (content' c) ∧
            ∀ k, CellKind k → m.pb k p = none → content' c k = content c k) := by
  have e : cell real (some m) n (some cells) dim w =
      CellCopy.cellToModule real m.keys m.pb m.st m.s n (cells.take dim) w := by
    unfold cell
    dsimp only
    rw [copyIn_ok h0 hm hd, Out.ok_bind]
  have hin : ∀ x, x ∈ cells.take dim ↔ ∃ i, i < dim ∧ cells[i]? = some x := by
    intro x
    rw [List.mem_iff_getElem?]
    constructor
    · rintro ⟨i, hi⟩
      rw [List.getElem?_take] at hi
      split at hi
      · exact ⟨i, by assumption, hi⟩
      · cases hi
    · rintro ⟨i, hi, hx⟩
      exact ⟨i, by rw [List.getElem?_take, if_pos hi]; exact hx⟩
  rw [e]
  refine ⟨fun h => CellCopy.cell_refused m.keys hk n h _ w, fun p hp => ?_⟩
  obtain ⟨w', h1, h2⟩ := CellCopy.cell_copied_partial R m.keys hk n p hp (cells.take dim)
    (fun x hx => by obtain ⟨i, hi, hx⟩ := (hin x).mp hx; exact hcells i x hi hx) w
  refine ⟨w', h1, fun content hh => ?_⟩
  obtain ⟨content', k1, k2, k3⟩ := h2 content hh
  refine ⟨content', k1, fun c hc hno => k2 c hc ?_, fun c j i hc hj hi hx => k3 c j hc hj ((hin _).mpr ⟨i, hi, hx⟩)⟩
  intro j hj hmem
  obtain ⟨i, hi, hx⟩ := (hin _).mp hmem
  exact hno j i hj hi hx

/-- **C205, violated.** With no cells the behaviour is undefined, although the class accepts an empty list; with a negative number an
exception leaves the C function. -/
theorem cell_none {α : Type} (ch : Chem α) (m : Inst α) (n : Int) (cells : List Int) (w : Nat → Bin α) :
    cell ch (some m) n (some cells) 0 w = .ub ∧
    ∀ dim : Int, dim < 0 → -intMax - 1 ≤ dim → cell ch (some m) n (some cells) dim w = .throw := by
  constructor
  · have : copyIn (0 : Int) cells = .ub := by
      unfold copyIn
      rw [show resizeInt 0 = .ok 0 by decide +kernel, Out.ok_bind, if_pos rfl]
    unfold cell
    dsimp only
    rw [this, Out.ub_bind]
  · intro dim h hn
    have e : resizeInt dim = .throw := by
      unfold resizeInt
      simp only [h, if_true]
      rw [if_pos (by unfold maxSize; unfold intMax at hn; omega)]
    unfold cell copyIn
    dsimp only
    rw [e, Out.throw_bind, Out.throw_bind]

/-- **C206, part.** `RM_InitialPhreeqc2SpeciesConcentrations` for a positive number of entries, arrays that are long enough, and
solutions that exist: `species_c` holds at `n * r + i` the concentration of the species with position `r` in entry `i`, and what is behind
the values is unchanged.

Missing: a number of entries that is not positive, and the cases missing in `Species.boundarySp_partial`. -/
theorem species_partial (st : Boundary.Init) (hsol : Sorted st.sols) (nsp : Nat) (tab : List (Int × Nat))
    (ht : Getters.GoodTable nsp tab) (hp : 0 < nsp) (n : Nat) (h0 : 0 < n) (hm : n ≤ maxSize) (c : List ℚ)
    (b1 : List Int) (b2 : Option (List Int)) (f : Option (List ℚ)) (hb1 : n ≤ b1.length)
    (hb2 : ∀ x, b2 = some x → n ≤ x.length) (hf : ∀ x, f = some x → n ≤ x.length) (hc : nsp * n ≤ c.length)
    (hall : ∀ (i : Nat) k, i < n → b1[i]? = some k →
      ∃ s1, Boundary.First st k s1 ∧ Boundary.Usable s1 ∧ Boundary.Good st (firstOf n b2) (firstOf n f) i s1 ∧
        Species.Known tab s1 ∧
        ∀ n2 s2, (firstOf n b2)[i]? = some n2 → find st.sols n2 = some s2 → Species.Known tab s2) :
    ∃ c', species (some (st, nsp, tab)) (some c) n (some b1) b2 f = .ok (some c', .value .ok) ∧
      c'.length = c.length ∧ (∀ j, nsp * n ≤ j → c'[j]? = c[j]?) ∧
      ∀ (i : Nat) (k : Int) (s1 : Solution), i < n → b1[i]? = some k → Boundary.First st k s1 →
        Species.Right st tab n (firstOf n b2) (firstOf n f) c' i s1 := by
  have hlen : (b1.take n).length = n := by rw [List.length_take]; omega
  have hget : ∀ i k, (b1.take n)[i]? = some k → i < n ∧ b1[i]? = some k := by
    intro i k h
    rw [List.getElem?_take] at h
    split at h
    · exact ⟨by assumption, h⟩
    · simp at h
  obtain ⟨v, e, hv, hs⟩ := Species.boundarySp_partial st hsol nsp tab ht hp (b1.take n) (firstOf n b2)
    (firstOf n f) [] (by intro h; rw [h] at hlen; simp at hlen; omega)
    (fun i k hk => hall i k (hget i k hk).1 (hget i k hk).2)
  rw [hlen] at hv
  have hvp : 0 < v.length := by rw [hv]; exact Nat.mul_pos hp h0
  have hvn : v ≠ [] := List.length_pos_iff.mp hvp
  refine ⟨v ++ c.drop v.length, ?_, ?_, ?_, ?_⟩
  · unfold species
    dsimp only
    rw [copyIn_ok h0 hm hb1, copyOpt_ok h0 hm hb2, copyOpt_ok h0 hm hf]
    simp only [Out.ok_bind, e, if_true]
    unfold copyOut
    rw [if_neg hvn, if_neg (by omega)]
    rfl
  · rw [List.length_append, List.length_drop]; omega
  · intro j hj
    rw [List.getElem?_append_right (by omega), List.getElem?_drop]
    congr 1; omega
  · intro i k s1 hi hb hF
    have hb' : (b1.take n)[i]? = some k := by rw [List.getElem?_take, if_pos hi]; exact hb
    have r := hs i k s1 hb' hF
    rw [hlen] at r
    have up : ∀ (x : ℚ) (q : Nat), v[q]? = some x → (v ++ c.drop v.length)[q]? = some x := by
      intro x q hx
      rw [List.getElem?_append_left (List.getElem?_eq_some_iff.mp hx).1, hx]
    intro s q x hq hx
    obtain ⟨r1, r2⟩ := r s q x hq hx
    refine ⟨fun ha => ?_, fun n2 s2 h1 h2 h3 => ⟨fun a b => up _ _ ((r2 n2 s2 h1 h2 h3).1 a b),
      fun c1 c2 a b => up _ _ ((r2 n2 s2 h1 h2 h3).2 c1 c2 a b)⟩⟩
    obtain ⟨a, a1, a2⟩ := r1 ha
    exact ⟨a, a1, up _ _ a2⟩

/-- **C206.** Without instance, without one of the first two arrays or when the module keeps no species the call says so and
changes nothing. -/
theorem species_refused (st : Boundary.Init) (hmode : st.mode = 0) (tab : List (Int × Nat)) (c : List ℚ) (n : Nat)
    (h0 : 0 < n) (hm : n ≤ maxSize) (b1 : List Int) (b2 : Option (List Int)) (f : Option (List ℚ))
    (hb1 : n ≤ b1.length) (hb2 : ∀ x, b2 = some x → n ≤ x.length) (hf : ∀ x, f = some x → n ≤ x.length) :
    species (some (st, 0, tab)) (some c) n (some b1) b2 f = .ok (some c, .value .fail) ∧
    (∀ c b1, species none c n b1 b2 f = .ok (c, .value .badInstance)) ∧
    ∀ nsp c b1, c = none ∨ b1 = none →
      species (some (st, nsp, tab)) c n b1 b2 f = .ok (c, .value .invalidArg) := by
  refine ⟨?_, fun _ _ => rfl, fun nsp c b1 h => ?_⟩
  · unfold species
    dsimp only
    rw [copyIn_ok h0 hm hb1, copyOpt_ok h0 hm hb2, copyOpt_ok h0 hm hf]
    simp only [Out.ok_bind, Species.boundarySp_refused st 0 tab _ _ _ [] hmode (.inr rfl)]
    rw [if_neg (by simp)]
  · unfold species
    rcases h with rfl | rfl
    · rfl
    · cases c <;> rfl

/-- **C206, violated.** With no entries the behaviour is undefined, although the class refuses an empty list; with a negative number
an exception leaves the C function. -/
theorem species_none (i : Boundary.Init × Nat × List (Int × Nat)) (c : List ℚ) (b1 : List Int)
    (b2 : Option (List Int)) (f : Option (List ℚ)) :
    species (some i) (some c) 0 (some b1) b2 f = .ub ∧
    ∀ n : Int, n < 0 → -intMax - 1 ≤ n → species (some i) (some c) n (some b1) b2 f = .throw := by
  constructor
  · have : copyIn (0 : Int) b1 = .ub := by
      unfold copyIn
      rw [show resizeInt 0 = .ok 0 by decide +kernel, Out.ok_bind, if_pos rfl]
    unfold species
    dsimp only
    rw [this, Out.ub_bind]
  · intro n h hn
    have e : resizeInt n = .throw := by
      unfold resizeInt
      simp only [h, if_true]
      rw [if_pos (by unfold maxSize; unfold intMax at hn; omega)]
    unfold species copyIn
    dsimp only
    rw [e, Out.throw_bind, Out.throw_bind]

/-! ## Cases -/

namespace Demo

/-- Two cells on two workers, solutions 1 and 2, kinetics 1 and 2. -/
def inst : Inst Entity := ⟨stockOf kin12, [1, 2], caseSettings, twoMap⟩

/-- Solutions 1 and 2, kinetics 1 in the first cell; the array is longer than needed. -/
def numbers : List Int := [1, 2] ++ List.replicate 10 (-1) ++ [1, -1] ++ [99]

/-- The premises of `initial_partial` with both optional arrays null. -/
theorem ready (F : Name → Name) (T : GasType) : CReady F T [0, 1] inst numbers none none where
  con := twoMap_consistent
  len := rfl
  fits := by decide
  first := by decide
  second := by intro l h; cases h
  frac := by intro l h; cases h
  fracs := by intro l h; cases h
  por := rfl
  sat := rfl
  rv := rfl
  stock := stockOf_valid F T
  units := fun _ => Nat.zero_le 2
  sat0 := by decide +kernel

/-- Null arrays are accepted: the first cell gets half a litre of solution 1 and all of kinetics 1, while the class leaves the behaviour of
empty vectors undefined (`InitCond.initial_empty_violated`). -/
theorem nulls : KineticsDefined inst none ∧
    ∃ r, initial real (some inst) (some numbers) none none (fun _ => Store.empty) = .ok r ∧
      decide (r.code = .ok ∧ (r.w 0 .solution 0).elim 0 (memberOf (fun s => val s.totals "Na".toList)) = 1 / 2 ∧
        (r.w 1 .solution 1).elim 0 (memberOf (fun s => val s.totals "Na".toList)) = 3 / 4 ∧
        (r.w 0 .kinetics 0).elim 0 (amountOf (.kin "Quartz".toList) .kinetics) = 10 ∧
        r.w 1 .kinetics 1 = none) = true := by
  refine ⟨fun c j n _ _ h hn => ?_, InitCond.of_ok (by decide +kernel)⟩
  have h : n = -1 := h
  omega

/-- Half of solution 2 in the first cell. -/
example : ∃ r, initial real (some inst) (some numbers) (some ([2, -1] ++ List.replicate 12 (-1)))
      (some ([1 / 2, 1] ++ List.replicate 12 1)) (fun _ => Store.empty) = .ok r ∧
    decide (r.code = .ok ∧ (r.w 0 .solution 0).elim 0 (memberOf (fun s => val s.totals "Na".toList)) = 1) = true :=
  InitCond.of_ok (by decide +kernel)

/-- Cell 2 copied to the second grid cell; the array goes on with a number outside the grid. -/
example : ∃ r, cell real (some inst) (-1) (some [1, 77]) 1 (fun _ => Store.empty) = .ok r ∧
    decide (r.1 = .ok ∧ r.2 0 .solution 0 = none ∧
      (r.2 1 .solution 1).elim 0 (memberOf (fun s => val s.totals "Na".toList)) = 3 / 4) = true :=
  CellCopy.of_ok (by decide +kernel)

/-- Species of two entries; the last value of the array is kept. -/
example : species (some (Species.demoSp, 2, [(7, 0), (9, 1)])) (some [0, 0, 0, 0, 8]) 2 (some [1, 1, 5])
    (some [-1, 2]) (some [1, 1 / 2]) = .ok (some [2, 5, 4, 4, 8], .value .ok) := by decide +kernel

end Demo

end Verif.CInit
