import Verif.CArrays.Lemmas

/-!
# Properties of the arrays of C callers
-/

namespace Verif.CArrays

open Verif.Grid Verif.Getters Verif.Setters Verif.Mapping Spec

/-- **C189.** A C program whose arrays have at least one entry for each grid cell does what the C++ program with vectors
in place of the arrays does: the same result codes, the same modules, the same values; entries beyond the number of grid
cells are never written, and there is no undefined behaviour that the C++ program does not have. -/
theorem c_as_cpp {N : Nat} (h0 : 0 < N) (cs : List VCall) (p : Proc) (h : Fits N p) :
    Same N p (run p (cs.map VCall.inC)) (calls (view N p) cs) := run_same h0 cs h

/-- **C189, result codes.** In such a program no getter fails: a getter that returns, returns `IRM_OK`, or `IRM_BADINSTANCE` when there is no such module. -/
theorem getters_succeed {N : Nat} (h0 : 0 < N) {p p' : Proc} (h : Fits N p) {id : Int} {g : Grid} {k : Nat} {c : IRM}
    (hs : step p (.get id g (some k)) = .ok (p', .value c)) :
    c = if (p.mods id).isSome then .ok else .badInstance := by
  change getArr p id g (some k) = _ at hs
  unfold getArr at hs
  cases hm : p.mods id with
  | none => rw [hm] at hs; cases hs; rfl
  | some m =>
    rw [hm] at hs
    obtain ⟨y, h2, hs⟩ := Out.bind_ok hs
    obtain ⟨_, k2⟩ := get_good (h.mods id m hm) h2
    obtain ⟨m', w, e⟩ := y
    dsimp only at hs k2
    cases e with
    | value i =>
      rw [(h.mods id m hm).1, deliver_ok h0 (h.heap k) k2] at hs
      cases hs; rfl
    | threw => cases hs
    | exited n => cases hs

/-- **C190.** `RM_GetPorosity` gives the values of the last `RM_SetPorosity` for this module, whatever was done in between
— including changes of the array that was given, calls that fail and calls for other modules — and changes nothing else. -/
theorem porosity_last {N : Nat} (h0 : 0 < N) {p : Proc} {id : Int} {m : Mod} (hm : p.mods id = some m)
    (hn : m.rm.map.nxyz = N) {k : Nat} (hk : N ≤ (p.heap k).length) (cs : List Call)
    (hc : ∀ q, .set id .porosity q ∉ cs) {p' : Proc} {rs : List Ret}
    (hr : run p (.set id .porosity (some k) :: cs) = .ok (p', rs)) {k' : Nat} (hk' : N ≤ (p'.heap k').length) :
    ∃ p'', step p' (.get id .porosity (some k')) = .ok (p'', .value .ok) ∧
      p''.heap k' = (p.heap k).take N ++ (p'.heap k').drop N ∧
      (∀ j ≠ k', p''.heap j = p'.heap j) ∧ p''.iheap = p'.iheap ∧ p''.mods = p'.mods := by
  have hv : ((p.heap k).take N).length = N := by rw [List.length_take]; omega
  refine get_porosity h0 ?_ hv hk'
  unfold run at hr
  obtain ⟨y, h1, hr⟩ := Out.bind_ok hr
  change setArr p id .porosity (some k) = _ at h1
  unfold setArr at h1
  rw [hm] at h1
  dsimp only at h1
  rw [hn, copyIn_ok h0 hk, Out.ok_bind] at h1
  obtain ⟨x, h2, h1⟩ := Out.bind_ok h1
  cases h1
  obtain ⟨k1, _, k2⟩ := set_keeps h2
  obtain ⟨k2, k3⟩ := k2 rfl (by rw [hv, hn])
  dsimp only at hr
  rw [k3] at hr
  obtain ⟨z, h3, hr⟩ := Out.bind_ok hr
  cases hr
  refine run_keeps cs ⟨x.1, ?_, by rw [k1, hn], k2⟩ hc h3
  show upd p.mods id _ id = _
  unfold upd
  rw [if_pos rfl]

/-- **C190, before the first `RM_SetPorosity`.** The porosities are those the module was made with. -/
theorem porosity_first {N : Nat} (h0 : 0 < N) {p : Proc} {id : Int} {m : Mod} (hm : p.mods id = some m)
    (hn : m.rm.map.nxyz = N) {x : ℚ} (hx : m.rm.arr .porosity = List.replicate N x) (cs : List Call)
    (hc : ∀ q, .set id .porosity q ∉ cs) {p' : Proc} {rs : List Ret} (hr : run p cs = .ok (p', rs))
    {k' : Nat} (hk' : N ≤ (p'.heap k').length) :
    ∃ p'', step p' (.get id .porosity (some k')) = .ok (p'', .value .ok) ∧
      p''.heap k' = List.replicate N x ++ (p'.heap k').drop N ∧
      (∀ j ≠ k', p''.heap j = p'.heap j) ∧ p''.iheap = p'.iheap ∧ p''.mods = p'.mods :=
  get_porosity h0 (run_keeps cs ⟨m, hm, hn, hx⟩ hc hr) (by rw [List.length_replicate]) hk'

/-- **C191.** A getter that returns has put the values of the class function, one for each grid cell, in the array, and
returns `IRM_OK`, whatever vectors the module was given: the caller sees no old values.

Full claim: also the porosity. It does not hold, `stale_array`. -/
theorem getters_write_partial {N : Nat} (h0 : 0 < N) {p p' : Proc} {id : Int} {m : Mod} (hm : p.mods id = some m)
    (hn : m.rm.map.nxyz = N) {g : Grid} (hg : g ≠ .porosity) {k : Nat} (hk : N ≤ (p.heap k).length) {c : IRM}
    (hs : step p (.get id g (some k)) = .ok (p', .value c)) :
    c = .ok ∧ ∃ m' v, m.get g = .ok (m', v, .value .ok) ∧ v.length = N ∧ p'.heap k = v ++ (p.heap k).drop N := by
  change getArr p id g (some k) = _ at hs
  unfold getArr at hs
  rw [hm] at hs
  obtain ⟨y, h2, hs⟩ := Out.bind_ok hs
  have k2 := get_length hn hg h2
  have hv := get_ret h2
  obtain ⟨m', w, e⟩ := y
  dsimp only at hs k2 hv
  cases e with
  | value i =>
    rw [hn, deliver_ok h0 hk k2] at hs
    cases hs
    refine ⟨rfl, m', w, ?_, k2, ?_⟩
    · rcases hv with hv | hv
      · rw [h2, hv]
      · exact absurd rfl (hv i)
    · show upd p.heap k _ k = _
      unfold upd
      rw [if_pos rfl]
  | threw => cases hs
  | exited n => cases hs

/-- **C192.** A setter, or a getter of the densities or volumes, that gets a null pointer returns `IRM_INVALIDARG` and
changes nothing.

Full claim: all getters. It does not hold, `null_fault`. -/
theorem null_refused_partial {p : Proc} {id : Int} {m : Mod} (hm : p.mods id = some m) :
    (∀ a, step p (.set id a none) = .ok (p, .value .invalidArg)) ∧
    step p (.mask id none) = .ok (p, .value .invalidArg) ∧
    ∀ g, g = .density ∨ g = .volume → step p (.get id g none) = .ok (p, .value .invalidArg) := by
  refine ⟨fun a => ?_, ?_, fun g hg => ?_⟩
  · show setArr p id a none = _
    unfold setArr
    rw [hm]
  · show maskArr p id none = _
    unfold maskArr
    rw [hm]
  · show getArr p id g none = _
    unfold getArr
    rw [hm]
    rcases hg with rfl | rfl <;> rfl

/-! ## Examples and failures -/

namespace Demo

/-- Two grid cells, one of them active. -/
def map0 : MapState where
  nthreads := 1
  nxyz := 2
  count := 1
  forward := [0, -1]
  backward := [[0]]
  ranges := [(0, 0)]

/-- One worker with one solution. -/
def mod0 : Mod where
  rm := { initial false map0 with sol := fun n j => if n = 0 ∧ j = 0 then some ⟨1, 1, 1, 25, 1, []⟩ else none }
  vol := []
  visc := []

/-- One module and arrays of three entries. -/
def p0 : Proc where
  mods := fun j => if j = 0 then some mod0 else none
  heap := fun _ => [5, 6, 7]
  iheap := fun _ => [1, 0, 1]

theorem fits : Fits 2 p0 where
  mods := by
    intro id m h
    unfold p0 at h
    dsimp only at h
    split at h
    · cases h; exact ⟨rfl, rfl⟩
    · cases h
  heap := fun _ => by show 2 ≤ 3; decide
  iheap := fun _ => by show 2 ≤ 3; decide

/-- A program. -/
def prog : List VCall :=
  [.own 0 1 9, .set 0 .porosity 0, .mask 0 4, .set 0 .temperature 1, .set 1 .porosity 0, .own 0 0 3, .get 0 .temperature 2,
   .get 0 .density 3, .get 0 .porosity 1]

/-- It ends in C++ without undefined behaviour, so that `c_as_cpp` says something of it. -/
example : ∃ w rs, calls (view 2 p0) prog = .ok (w, rs) ∧ rs.length = 9 ∧ w.vecs 1 = [5, 9] ∧
    w.vecs 3 = [1, inactive] := by
  have h : (match calls (view 2 p0) prog with
      | .ok (w, rs) => decide (rs.length = 9 ∧ w.vecs 1 = [5, 9] ∧ w.vecs 3 = [1, inactive])
      | _ => false) = true := by decide +kernel
  cases hc : calls (view 2 p0) prog with
  | ok r => rw [hc] at h; exact ⟨r.1, r.2, rfl, of_decide_eq_true h⟩
  | throw => rw [hc] at h; cases h
  | ub => rw [hc] at h; cases h

/-- A program between `RM_SetPorosity` and `RM_GetPorosity` as in `porosity_last`. -/
example : ∃ p' rs, run p0 (.set 0 .porosity (some 0) :: [.own 0 0 3, .set 1 .porosity (some 0), .get 0 .density (some 3),
    .set 0 .density none]) = .ok (p', rs) ∧ 2 ≤ (p'.heap 1).length ∧ rs.length = 5 := ⟨_, _, rfl, by decide, rfl⟩

/-- The module after a longer vector of porosities was set in another way than by the C interface, e.g. by
`InitializeYAML`. -/
def long : Out (Mod × Ret) := mod0.set .porosity [1, 2, 3]

end Demo

/-- **C191 does not hold for the porosity.** `SetPorosity` has accepted a vector of three values for two grid cells. Then
`RM_GetPorosity` returns `IRM_FAIL` and leaves the array as it was: `INACTIVE_CELL_VALUE` is put in a local vector only
(`/repo/src/RM_interface_F.cpp:1035-1039`). -/
theorem stale_array : ∃ m, Demo.long = .ok (m, .value .ok) ∧
    ∃ p', step { Demo.p0 with mods := fun j => if j = 0 then some m else none } (.get 0 .porosity (some 0)) =
      .ok (p', .value .fail) ∧ p'.heap 0 = [5, 6, 7] := ⟨_, rfl, _, rfl, rfl⟩

/-- **C192 does not hold for the porosity, pressure, temperature and viscosity.** The functions that `RM_GetPorosity` and
the others call do not test the pointer. -/
theorem null_fault : ∀ g, g = .porosity ∨ g = .pressure ∨ g = .temperature ∨ g = .viscosity →
    step Demo.p0 (.get 0 g none) = .ub := by
  rintro g (rfl | rfl | rfl | rfl) <;> rfl

end Verif.CArrays
