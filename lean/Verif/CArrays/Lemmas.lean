import Verif.CArrays.Spec
import Verif.Setters.Lemmas

/-!
# Lemmas: arrays of C callers
-/

namespace Verif.CArrays

open Verif.Grid Verif.Getters Verif.Setters Verif.Mapping Spec

theorem Out.bind_ok {α β : Type} {x : Out α} {f : α → Out β} {b : β} (h : (x >>= f) = .ok b) :
    ∃ a, x = .ok a ∧ f a = .ok b := by
  cases x with
  | ok a => exact ⟨a, rfl, h⟩
  | throw => cases h
  | ub => cases h

theorem putCells_length {α : Type} {f : Nat → Out α} {cells : List Nat} {c c' : List α}
    (h : putCells f cells c = .ok c') : c'.length = c.length := by
  unfold putCells at h
  induction cells generalizing c with
  | nil => cases h; rfl
  | cons a l ih =>
    rw [List.foldlM_cons] at h
    obtain ⟨c1, h1, h2⟩ := Out.bind_ok h
    obtain ⟨v, _, h4⟩ := Out.bind_ok h1
    split at h4
    · cases h4
      rw [ih h2, List.length_set]
    · cases h4

theorem scan_length {σ α : Type} {miss : Missing} {back : List (List Nat)} {sol : Nat → Int → Option σ}
    {f : σ → Nat → Out α} {ps : List (Nat × Int)} {c : List α} {r : List α × Bool}
    (h : scan miss back sol f ps c = .ok r) : r.1.length = c.length := by
  induction ps generalizing c with
  | nil => cases h; rfl
  | cons q ps ih =>
    obtain ⟨n, j⟩ := q
    unfold scan at h
    split at h
    · split at h
      · cases h; rfl
      · exact ih h
      · cases h
    · obtain ⟨cells, _, h⟩ := Out.bind_ok h
      obtain ⟨c1, h1, h⟩ := Out.bind_ok h
      rw [ih h, putCells_length h1]

/-- A module for `N` cells. -/
def Good (N : Nat) (m : Mod) : Prop := m.rm.map.nxyz = N ∧ (m.rm.arr .porosity).length = N

theorem get_length {N : Nat} {m : Mod} (h : m.rm.map.nxyz = N) {g : Grid} (hg : g ≠ .porosity)
    {r : Mod × List ℚ × Ret} (hr : m.get g = .ok r) : r.2.1.length = N := by
  have hs : ∀ {miss : Missing} {f : Soln → Nat → Out ℚ} {root : List ℚ} {x : List ℚ × Bool},
      scan miss m.view.map.backward m.view.sol f (ownedCells m.view.map.ranges)
        (resize root m.view.map.nxyz inactive) = .ok x → x.1.length = N := by
    intro miss f root x hx
    rw [scan_length hx, length_resize]; exact h
  cases g with
  | porosity => exact absurd rfl hg
  | density =>
    obtain ⟨x, h3, h4⟩ := Out.bind_ok hr
    have := hs h3
    split at h4 <;> (cases h4; exact this)
  | _ =>
    obtain ⟨v, h1, h2⟩ := Out.bind_ok hr
    obtain ⟨x, h3, h4⟩ := Out.bind_ok h1
    cases h4; cases h2
    exact hs h3

theorem get_keeps {m : Mod} {g : Grid} {r : Mod × List ℚ × Ret} (hr : m.get g = .ok r) :
    r.1.rm.map = m.rm.map ∧ r.1.rm.arr .porosity = m.rm.arr .porosity := by
  cases g with
  | porosity => cases hr; exact ⟨rfl, rfl⟩
  | density =>
    obtain ⟨x, h3, h4⟩ := Out.bind_ok hr
    split at h4 <;> (cases h4; exact ⟨rfl, rfl⟩)
  | _ =>
    obtain ⟨v, h1, h2⟩ := Out.bind_ok hr
    cases h2; exact ⟨rfl, rfl⟩

theorem get_good {N : Nat} {m : Mod} (h : Good N m) {g : Grid} {r : Mod × List ℚ × Ret} (hr : m.get g = .ok r) :
    Good N r.1 ∧ r.2.1.length = N := by
  obtain ⟨h1, h2⟩ := get_keeps hr
  refine ⟨⟨by rw [h1]; exact h.1, by rw [h2]; exact h.2⟩, ?_⟩
  by_cases hg : g = .porosity
  · subst hg; cases hr; exact h.2
  · exact get_length h.1 hg hr

theorem distribute_same {s s' : RM} {a : Arr} {v : List ℚ} (h : distribute s a v = .ok s') :
    s'.map = s.map ∧ s'.arr = s.arr := by
  cases a with
  | pressure =>
    obtain ⟨s1, h1, h2⟩ := Out.bind_ok h
    obtain ⟨w, _, h3⟩ := Out.bind_ok h1
    obtain ⟨w', _, h4⟩ := Out.bind_ok h2
    cases h3; cases h4; exact ⟨rfl, rfl⟩
  | temperature =>
    obtain ⟨w, _, h3⟩ := Out.bind_ok h
    cases h3; exact ⟨rfl, rfl⟩
  | _ => cases h; exact ⟨rfl, rfl⟩

theorem set_good {N : Nat} {m : Mod} (h : Good N m) {a : Arr} {v : List ℚ} (hv : v.length = N) {r : Mod × Ret}
    (hr : m.set a v = .ok r) : Good N r.1 := by
  obtain ⟨x, h1, h2⟩ := Out.bind_ok hr
  cases h2
  have hl : ¬ v.length < m.rm.clear.map.nxyz := by
    show ¬ v.length < m.rm.map.nxyz
    rw [hv, h.1]; omega
  simp only [setGrid, setGeneric, if_neg hl, if_true] at h1
  obtain ⟨s', h3, h4⟩ := Out.bind_ok h1
  rw [finish_ok] at h4
  cases h4
  obtain ⟨k1, k2⟩ := distribute_same h3
  constructor
  · show s'.map.nxyz = N
    rw [k1]; exact h.1
  · show (s'.arr .porosity).length = N
    rw [k2]
    show (if Arr.porosity = a then v else m.rm.arr .porosity).length = N
    split
    · exact hv
    · exact h.2

theorem mask_good {N : Nat} {m : Mod} (h : Good N m) (v : List Int) : Good N (m.setMask v).1 := by
  unfold Mod.setMask Setters.setMask RM.finish
  dsimp only
  split <;> exact h

theorem upd_good {N : Nat} {f : Int → Option Mod} (h : ∀ id m, f id = some m → Good N m) {id : Int} {m : Mod}
    (hm : Good N m) : ∀ j m', upd f id (some m) j = some m' → Good N m' := by
  intro j m' hj
  unfold upd at hj
  split at hj
  · cases hj; exact hm
  · exact h j m' hj

theorem copyIn_ok {α : Type} {l : List α} {N : Nat} (h0 : 0 < N) (hl : N ≤ l.length) : copyIn l N = .ok (l.take N) := by
  unfold copyIn
  rw [if_neg (by omega), if_neg (by omega)]

theorem copyOut_ok {l v : List ℚ} {N : Nat} (h0 : 0 < N) (hl : N ≤ l.length) (hv : v.length = N) :
    copyOut l v = .ok (v ++ l.drop N) := by
  unfold copyOut
  rw [if_neg (by rintro rfl; simp at hv; omega), if_neg (by omega), hv]

theorem deliver_ok {g : Grid} {l v : List ℚ} {N : Nat} (h0 : 0 < N) (hl : N ≤ l.length) (hv : v.length = N) :
    deliver g N l v = .ok (v ++ l.drop N, .value .ok) := by
  unfold deliver
  rw [if_pos hv, copyOut_ok h0 hl hv]; rfl

/-- A getter that returns, returns `IRM_OK`. -/
theorem get_ret {m : Mod} {g : Grid} {r : Mod × List ℚ × Ret} (hr : m.get g = .ok r) :
    r.2.2 = .value .ok ∨ ∀ c, r.2.2 ≠ .value c := by
  cases g with
  | porosity => cases hr; exact Or.inl rfl
  | density =>
    obtain ⟨x, h3, h4⟩ := Out.bind_ok hr
    split at h4
    · cases h4; exact Or.inl rfl
    · cases h4
      dsimp only
      split
      · exact Or.inl rfl
      · rename_i h; exact Or.inr h
  | _ =>
    obtain ⟨v, h1, h2⟩ := Out.bind_ok hr
    cases h2; exact Or.inl rfl

theorem step_same {N : Nat} (h0 : 0 < N) {p : Proc} (h : Fits N p) (c : VCall) :
    Same N p (step p c.inC) (call (view N p) c) := by
  cases c with
  | set id a k =>
    show Same N p (setArr p id a (some k)) _
    unfold call setArr
    show Same N p _ (match p.mods id with | none => _ | some m => _)
    cases hm : p.mods id with
    | none => exact ⟨p, rfl, rfl, h, rfl, fun _ => rfl⟩
    | some m =>
      have hg := h.mods id m hm
      dsimp only
      rw [hg.1, copyIn_ok h0 (h.heap k), Out.ok_bind]
      show Same N p _ (m.set a ((p.heap k).take N) >>= _)
      have hv : ((p.heap k).take N).length = N := by
        rw [List.length_take]; have := h.heap k; omega
      cases hr : m.set a ((p.heap k).take N) with
      | ok r => exact ⟨_, rfl, rfl, ⟨upd_good h.mods (set_good hg hv hr), h.heap, h.iheap⟩, rfl, fun _ => rfl⟩
      | throw => rfl
      | ub => trivial
  | mask id k =>
    show Same N p (maskArr p id (some k)) _
    unfold call maskArr
    show Same N p _ (match p.mods id with | none => _ | some m => _)
    cases hm : p.mods id with
    | none => exact ⟨p, rfl, rfl, h, rfl, fun _ => rfl⟩
    | some m =>
      have hg := h.mods id m hm
      dsimp only
      rw [hg.1, copyIn_ok h0 (h.iheap k), Out.ok_bind]
      exact ⟨_, rfl, rfl, ⟨upd_good h.mods (mask_good hg _), h.heap, h.iheap⟩, rfl, fun _ => rfl⟩
  | get id g k =>
    show Same N p (getArr p id g (some k)) _
    unfold call getArr
    show Same N p _ (match p.mods id with | none => _ | some m => _)
    cases hm : p.mods id with
    | none => exact ⟨p, rfl, rfl, h, rfl, fun _ => rfl⟩
    | some m =>
      have hg := h.mods id m hm
      dsimp only
      cases hr : m.get g with
      | ok r =>
        obtain ⟨k1, k2⟩ := get_good hg hr
        obtain ⟨m', v, e⟩ := r
        dsimp only at k1 k2
        rw [Out.ok_bind, Out.ok_bind]
        dsimp only
        rcases get_ret hr with he | he
        · dsimp only at he
          subst he
          dsimp only
          rw [hg.1, deliver_ok h0 (h.heap k) k2, Out.ok_bind]
          refine ⟨_, rfl, ?_, ⟨upd_good h.mods k1, ?_, h.iheap⟩, rfl, ?_⟩
          · unfold view
            congr 1
            funext j
            show (upd p.heap k _ j).take N = if j = k then v else (p.heap j).take N
            unfold upd
            split
            · rw [← k2, List.take_left]
            · rfl
          · intro j
            show N ≤ (upd p.heap k _ j).length
            unfold upd
            split
            · rw [List.length_append, k2]; omega
            · exact h.heap j
          · intro j
            show (upd p.heap k _ j).drop N = _
            unfold upd
            split
            · rename_i hj
              subst hj
              dsimp only
              conv => lhs; rw [← k2, List.drop_left, k2]
            · rfl
        · cases e with
          | value c => exact absurd rfl (he c)
          | threw => exact ⟨_, rfl, rfl, ⟨upd_good h.mods k1, h.heap, h.iheap⟩, rfl, fun _ => rfl⟩
          | exited n => exact ⟨_, rfl, rfl, ⟨upd_good h.mods k1, h.heap, h.iheap⟩, rfl, fun _ => rfl⟩
      | throw => rfl
      | ub => trivial
  | own k i x =>
    unfold call
    show Same N p (if i < (p.heap k).length then _ else _) (if i < ((p.heap k).take N).length then _ else _)
    have hl : ((p.heap k).take N).length = N := by
      rw [List.length_take]; have := h.heap k; omega
    by_cases hi : i < N
    · rw [if_pos (by have := h.heap k; omega), if_pos (by rw [hl]; exact hi)]
      refine ⟨_, rfl, ?_, ⟨h.mods, ?_, h.iheap⟩, rfl, ?_⟩
      · unfold view
        congr 1
        funext j
        show (upd p.heap k _ j).take N = if j = k then ((p.heap k).take N).set i x else (p.heap j).take N
        unfold upd
        split
        · rw [List.take_set]
        · rfl
      · intro j
        show N ≤ (upd p.heap k _ j).length
        unfold upd
        split
        · rw [List.length_set]; exact h.heap k
        · exact h.heap j
      · intro j
        show (upd p.heap k _ j).drop N = _
        unfold upd
        split
        · rename_i hj
          subst hj
          rw [List.drop_set_of_lt hi]
        · rfl
    · rw [if_neg (c := i < ((p.heap k).take N).length) (by rw [hl]; exact hi)]
      trivial

theorem beyond_trans {N : Nat} {p q r : Proc} (h1 : Beyond N p q) (h2 : Beyond N q r) : Beyond N p r :=
  ⟨h2.1.trans h1.1, fun k => (h2.2 k).trans (h1.2 k)⟩

theorem run_same {N : Nat} (h0 : 0 < N) (cs : List VCall) {p : Proc} (h : Fits N p) :
    Same N p (run p (cs.map VCall.inC)) (calls (view N p) cs) := by
  induction cs generalizing p with
  | nil => exact ⟨p, rfl, rfl, h, rfl, fun _ => rfl⟩
  | cons c cs ih =>
    rw [List.map_cons]
    unfold run calls
    have hs := step_same h0 h c
    cases hc : call (view N p) c with
    | ok r =>
      obtain ⟨w, e⟩ := r
      rw [hc] at hs
      obtain ⟨p', h1, rfl, h2, h3⟩ := hs
      rw [h1, Out.ok_bind, Out.ok_bind]
      dsimp only
      cases e with
      | value i =>
        dsimp only
        have hr := ih h2
        cases hc' : calls (view N p') cs with
        | ok r =>
          obtain ⟨w, e⟩ := r
          rw [hc'] at hr
          obtain ⟨p'', k1, rfl, k2, k3⟩ := hr
          rw [k1]
          exact ⟨p'', rfl, rfl, k2, beyond_trans h3 k3⟩
        | throw => rw [hc'] at hr; rw [show run p' (cs.map VCall.inC) = .throw from hr]; rfl
        | ub => trivial
      | threw => exact ⟨p', rfl, rfl, h2, h3⟩
      | exited n => exact ⟨p', rfl, rfl, h2, h3⟩
    | throw => rw [hc] at hs; rw [show step p c.inC = .throw from hs]; rfl
    | ub => trivial

/-! ## One vector of a module -/

/-- Module `id` is for `N` cells and has the porosities `v`. -/
def Has (N : Nat) (id : Int) (v : List ℚ) (p : Proc) : Prop :=
  ∃ m, p.mods id = some m ∧ m.rm.map.nxyz = N ∧ m.rm.arr .porosity = v

theorem set_keeps {m : Mod} {a : Arr} {v : List ℚ} {r : Mod × Ret} (hr : m.set a v = .ok r) :
    r.1.rm.map = m.rm.map ∧ (a ≠ .porosity → r.1.rm.arr .porosity = m.rm.arr .porosity) ∧
      (a = .porosity → m.rm.map.nxyz ≤ v.length → r.1.rm.arr .porosity = v ∧ r.2 = .value .ok) := by
  obtain ⟨x, h1, h2⟩ := Out.bind_ok hr
  cases h2
  by_cases hl : v.length < m.rm.clear.map.nxyz
  · simp only [setGrid, setGeneric, if_pos hl] at h1
    cases h1
    refine ⟨rfl, fun _ => rfl, fun _ k => absurd hl ?_⟩
    show ¬ v.length < m.rm.map.nxyz
    omega
  · simp only [setGrid, setGeneric, if_neg hl, if_true] at h1
    obtain ⟨s', h3, h4⟩ := Out.bind_ok h1
    rw [finish_ok] at h4
    cases h4
    obtain ⟨k1, k2⟩ := distribute_same h3
    refine ⟨k1, fun ha => ?_, ?_⟩
    · show s'.arr .porosity = _
      rw [k2]
      show (if Arr.porosity = a then v else m.rm.arr .porosity) = _
      rw [if_neg (Ne.symm ha)]
    · rintro rfl _
      refine ⟨?_, rfl⟩
      show s'.arr .porosity = _
      rw [k2]
      show (if Arr.porosity = Arr.porosity then v else m.rm.arr .porosity) = _
      rw [if_pos rfl]

theorem mask_keeps (m : Mod) (v : List Int) :
    (m.setMask v).1.rm.map = m.rm.map ∧ (m.setMask v).1.rm.arr = m.rm.arr := by
  unfold Mod.setMask Setters.setMask RM.finish
  dsimp only
  split <;> exact ⟨rfl, rfl⟩

theorem has_upd {N : Nat} {id : Int} {v : List ℚ} {p : Proc} (h : Has N id v p) {j : Int} {m m' : Mod}
    (hm : p.mods j = some m) (hk : j = id → m'.rm.map = m.rm.map ∧ m'.rm.arr .porosity = m.rm.arr .porosity) (q : Proc)
    (hq : q.mods = upd p.mods j (some m')) : Has N id v q := by
  obtain ⟨m0, h1, h2, h3⟩ := h
  unfold Has
  rw [hq]
  unfold upd
  by_cases hj : id = j
  · subst hj
    rw [hm] at h1; cases h1
    obtain ⟨k1, k2⟩ := hk rfl
    exact ⟨m', by rw [if_pos rfl], by rw [k1]; exact h2, by rw [k2]; exact h3⟩
  · exact ⟨m0, by rw [if_neg hj]; exact h1, h2, h3⟩

theorem step_keeps {N : Nat} {id : Int} {v : List ℚ} {p : Proc} (h : Has N id v p) {c : Call}
    (hc : ∀ q, c ≠ .set id .porosity q) {r : Proc × Ret} (hr : step p c = .ok r) : Has N id v r.1 := by
  cases c with
  | set j a q =>
    change setArr p j a q = .ok r at hr
    unfold setArr at hr
    cases hm : p.mods j with
    | none => rw [hm] at hr; cases hr; exact h
    | some m =>
      rw [hm] at hr
      cases q with
      | none => cases hr; exact h
      | some k =>
        obtain ⟨x, _, hr⟩ := Out.bind_ok hr
        obtain ⟨y, h2, hr⟩ := Out.bind_ok hr
        cases hr
        obtain ⟨k1, k2, _⟩ := set_keeps h2
        refine has_upd h hm (fun hj => ⟨k1, k2 ?_⟩) _ rfl
        rintro rfl
        exact hc _ (by rw [hj])
  | mask j q =>
    change maskArr p j q = .ok r at hr
    unfold maskArr at hr
    cases hm : p.mods j with
    | none => rw [hm] at hr; cases hr; exact h
    | some m =>
      rw [hm] at hr
      cases q with
      | none => cases hr; exact h
      | some k =>
        obtain ⟨x, _, hr⟩ := Out.bind_ok hr
        cases hr
        exact has_upd h hm (fun _ => ⟨(mask_keeps m x).1, by rw [(mask_keeps m x).2]⟩) _ rfl
  | get j g q =>
    change getArr p j g q = .ok r at hr
    unfold getArr at hr
    cases hm : p.mods j with
    | none => rw [hm] at hr; cases hr; exact h
    | some m =>
      rw [hm] at hr
      cases q with
      | none =>
        dsimp only at hr
        split at hr
        · cases hr; exact h
        · obtain ⟨y, h2, hr⟩ := Out.bind_ok hr
          split at hr
          · cases hr
          · cases hr
            exact has_upd h hm (fun _ => get_keeps h2) _ rfl
      | some k =>
        obtain ⟨y, h2, hr⟩ := Out.bind_ok hr
        obtain ⟨m', w, e⟩ := y
        dsimp only at hr
        cases e with
        | value i =>
          obtain ⟨d, _, hr⟩ := Out.bind_ok hr
          cases hr
          exact has_upd h hm (fun _ => get_keeps h2) _ rfl
        | threw => cases hr; exact has_upd h hm (fun _ => get_keeps h2) _ rfl
        | exited n => cases hr; exact has_upd h hm (fun _ => get_keeps h2) _ rfl
  | own k i x =>
    unfold step at hr
    dsimp only at hr
    split at hr
    · cases hr; exact h
    · cases hr

theorem run_keeps {N : Nat} {id : Int} {v : List ℚ} (cs : List Call) {p : Proc} (h : Has N id v p)
    (hc : ∀ q, .set id .porosity q ∉ cs) {r : Proc × List Ret} (hr : run p cs = .ok r) : Has N id v r.1 := by
  induction cs generalizing p r with
  | nil => cases hr; exact h
  | cons c cs ih =>
    unfold run at hr
    obtain ⟨y, h1, hr⟩ := Out.bind_ok hr
    have h2 := step_keeps h (fun q e => hc q (by rw [e]; exact List.mem_cons_self)) h1
    obtain ⟨p', e⟩ := y
    dsimp only at hr h2
    cases e with
    | value i =>
      obtain ⟨z, h3, hr⟩ := Out.bind_ok hr
      cases hr
      exact ih (r := z) h2 (fun q hq => hc q (List.mem_cons_of_mem _ hq)) h3
    | threw => cases hr; exact h2
    | exited n => cases hr; exact h2

theorem get_porosity {N : Nat} (h0 : 0 < N) {id : Int} {v : List ℚ} {p : Proc} (h : Has N id v p) (hv : v.length = N)
    {k : Nat} (hk : N ≤ (p.heap k).length) :
    ∃ p', step p (.get id .porosity (some k)) = .ok (p', .value .ok) ∧ p'.heap k = v ++ (p.heap k).drop N ∧
      (∀ j ≠ k, p'.heap j = p.heap j) ∧ p'.iheap = p.iheap ∧ p'.mods = p.mods := by
  obtain ⟨m, h1, h2, rfl⟩ := h
  refine ⟨{ p with mods := upd p.mods id (some m), heap := upd p.heap k (m.rm.arr .porosity ++ (p.heap k).drop N) },
    ?_, ?_, ?_, rfl, ?_⟩
  · show getArr p id .porosity (some k) = _
    unfold getArr
    rw [h1]
    show (deliver .porosity m.rm.map.nxyz (p.heap k) (m.rm.arr .porosity) >>= _) = _
    rw [h2, deliver_ok h0 hk hv]
    rfl
  · show upd p.heap k _ k = _
    unfold upd
    rw [if_pos rfl]
  · intro j hj
    show upd p.heap k _ j = _
    unfold upd
    rw [if_neg hj]
  · funext j
    show upd p.mods id _ j = _
    unfold upd
    split
    · rename_i e; rw [e, h1]
    · rfl

end Verif.CArrays
