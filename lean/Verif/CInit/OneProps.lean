import Verif.CInit.OneModel
import Verif.CInit.Props
import Verif.InitCond.OneKind

/-! # Initial conditions for one kind of reactant, and in Fortran -/

namespace Verif.CInit

open Verif.OMap Verif.NameDouble Verif.CTables Verif.Store Verif.Mapping Verif.Transfer Verif.Mixing
  Verif.InitCond Verif.CBoundary

/-- **C207, part.** The calls for one kind, on an array with at least one number for each grid cell, negative or defined: the call
succeeds, the kind is set in every reaction cell whose number is not negative, and all other kinds and cells are as they were. What the array
holds further on does not matter.

Missing: a null pointer (`one_null`). -/
theorem one_partial (F : Name → Name) (T : GasType) (g : List Int) (m : Inst Entity) (k : Kind) (pos : Nat)
    (l : List Int) (hk : position k = some pos) (hcon : Consistent g m.s) (hg : g.length = m.s.nxyz)
    (hmax : m.s.nxyz ≤ maxSize) (hl : m.s.nxyz ≤ l.length) (hpor : m.st.por.length = m.s.nxyz)
    (hsat : m.st.sat.length = m.s.nxyz) (hrv : m.st.rv.length = m.s.nxyz) (hst : Stock F T m.pb)
    (hu : ∀ k, m.st.units k ≤ 2) (h0 : ∀ x ∈ m.st.sat, 0 ≤ x) (hs : ∀ c, c < m.s.count → Sound m.s m.st c)
    (hdef : ∀ (j : Nat) n, j < m.s.nxyz → l[j]? = some n → 0 ≤ n → m.pb k n ≠ none)
    (w : Nat → Bin Entity) (content : Int → Kind → Option Entity)
    (held : HeldByOwners CellKind m.s.ranges content w) :
    ∃ r content', oneKind real (some m) pos (some l) w = .ok r ∧ r.code = .ok ∧
      HeldByOwners CellKind m.s.ranges content' r.w ∧
      (∀ (c : Nat) k', c < m.s.count → CellKind k' → k' ≠ k → content' c k' = content c k') ∧
      ∀ (c j : Nat) n por sat rv, c < m.s.count → primary m.s c = some j → l[j]? = some n →
        m.st.por[j]? = some por → m.st.sat[j]? = some sat → m.st.rv[j]? = some rv →
        (n < 0 → content' c k = content c k) ∧
        (0 ≤ n → k = .solution → ∃ s', content' c k = some (.sol s') ∧
          ∀ X, X ∈ extensives ∨ (∃ el, X = fun b => val b.totals el) →
            X s' = rv * por * sat * (m.pb k n).elim 0 (perVolume X)) ∧
        (0 ≤ n → k ≠ .solution → ∃ r', content' c k = some (.rx r') ∧
          ∀ q φ, Factor por rv (m.st.units k) φ →
            measure q k r' = φ * (m.pb k n).elim 0 (amountOf q k)) := by
  have hpos : 0 < m.s.nxyz := by
    rw [← hg]
    exact List.length_pos_of_mem hcon.count_max.2
  have hlen : (l.take m.s.nxyz).length = m.s.nxyz := by rw [List.length_take]; omega
  obtain ⟨r, content', h1, h2, h3, h4, h5⟩ := one_kind F T g m.s m.st m.pb k pos (l.take m.s.nxyz) hk hcon hg
    hlen hpor hsat hrv hst hu h0 hs (by
      intro n hn
      obtain ⟨j, hj⟩ := List.mem_iff_getElem?.mp hn
      rw [List.getElem?_take] at hj
      split at hj
      · exact hdef j n (by assumption) hj
      · cases hj) w content held
  refine ⟨r, content', ?_, h2, h3, h4, ?_⟩
  · unfold oneKind
    dsimp only
    rw [copyIn_ok hpos hmax hl, Out.ok_bind, h1]
  · intro c j n por sat rv hc hj hn hp hsa hr
    refine h5 c j n por sat rv hc hj ?_ hp hsa hr
    have hjl : j < m.s.nxyz := by
      rw [← hpor]
      exact (List.getElem?_eq_some_iff.mp hp).1
    rw [List.getElem?_take, if_pos hjl]
    exact hn

/-- **C207, violated.** A null pointer is read: the functions for one kind are the only setters of initial conditions in C that do not
refuse it (`initial_refused`). Bad instances are refused. -/
theorem one_null {α : Type} (ch : Chem α) (m : Inst α) (pos : Nat) (v : Option (List Int)) (w : Nat → Bin α) :
    oneKind ch (some m) pos none w = .ub ∧ oneKind ch none pos v w = .ok ⟨.badInstance, [], w⟩ :=
  ⟨rfl, rfl⟩

/-- **C208.** The Fortran functions do to the module what the C functions do with the same arrays: without mixing the optional arrays are null,
with mixing they are given; the functions for cells agree as well. This covers every outcome, undefined behaviour
included. -/
theorem fortran_same {α : Type} (ch : Chem α) (inst : Option (Inst α)) (i1 i2 : List Int) (f : List ℚ)
    (n dim : Int) (w : Nat → Bin α) :
    initialF ch inst i1 w = initial ch inst (some i1) none none w ∧
    initialMixF ch inst i1 i2 f w = initial ch inst (some i1) (some i2) (some f) w ∧
    cellF ch inst n i1 dim w = cell ch inst n (some i1) dim w := by
  refine ⟨?_, ?_, ?_⟩
  · cases inst with
    | none => rfl
    | some m =>
      unfold initialF initial copyOver
      dsimp only
      cases mulInt (m.s.nxyz : Int) 7 with
      | throw => rfl
      | ub => rfl
      | ok k =>
        simp only [Out.ok_bind]
        unfold copyIn
        cases e : resizeInt k with
        | throw => simp only [e, Out.throw_bind]
        | ub => simp only [e, Out.ub_bind]
        | ok n => simp only [e, Out.ok_bind]
  · cases inst <;> rfl
  · cases inst <;> rfl

namespace Demo

/-- The premises of `one_partial` are met: kinetics 1 in the first cell; the array goes on with an undefined number. -/
theorem one_applies (F : Name → Name) (T : GasType) : ∃ r content',
    oneKind real (some inst) 6 (some [1, -1, 55]) (fun _ => Store.empty) = .ok r ∧ r.code = .ok ∧
      HeldByOwners CellKind twoMap.ranges content' r.w ∧ ∃ r', content' (0 : Nat) .kinetics = some (.rx r') ∧
        measure (.kin "Quartz".toList) .kinetics r' = 10 := by
  obtain ⟨r, content', h1, h2, h3, _, h5⟩ := one_partial F T [0, 1] inst .kinetics 6 [1, -1, 55] rfl
    twoMap_consistent rfl (by decide) (by decide) rfl rfl rfl (stockOf_valid F T) (fun _ => Nat.zero_le 2)
    (by decide +kernel) (by
      intro c hc j hj
      have : c = 0 ∨ c = 1 := by change c < 2 at hc; omega
      rcases this with rfl | rfl <;> cases hj <;>
        exact ⟨fun x hx => by cases hx; decide +kernel, fun x hx => by cases hx; decide +kernel⟩)
    (by
      intro j n hj h h0
      change j < 2 at hj
      match j, h with
      | 0, h => cases h; decide +kernel
      | 1, h => cases h; omega
      | j + 2, _ => omega)
    (fun _ => Store.empty) (fun _ _ => none) (fun _ _ _ _ => ⟨fun _ => rfl, fun _ => rfl⟩)
  obtain ⟨r', e, hq⟩ := (h5 0 0 1 (1 / 2) 1 1 (by decide) rfl rfl rfl rfl rfl).2.2 (by decide) (by decide)
  refine ⟨r, content', h1, h2, h3, r', e, ?_⟩
  rw [hq (.kin "Quartz".toList) 1 .bulk]
  decide +kernel

end Demo

end Verif.CInit
