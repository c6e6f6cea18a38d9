import Verif.Boundary.Spec
import Verif.Conc.Lemmas
import Verif.Mixing.SolutionProps
import Verif.InitCond.Real

/-! # Lemmas on boundary concentrations -/

namespace Verif.Boundary

open Verif.OMap Verif.NameDouble Verif.Mixing Verif.Conc Verif.Grid

/-! ## Totals of elements -/

/-- Entries of an element or its valence states, summed. -/
def tsum (nd : ND) (e : Name) : ℚ :=
  (nd.map (fun p => if p.1.takeWhile (· ≠ '(') = e then p.2 else 0)).sum

theorem tsum_cons (p : Name × ℚ) (nd : ND) (e : Name) :
    tsum (p :: nd) e = (if p.1.takeWhile (· ≠ '(') = e then p.2 else 0) + tsum nd e := by
  simp [tsum]

theorem getTotal_tsum (nd : ND) (e : Name) : getTotalElement nd e = tsum nd e := by
  have : ∀ (nd : ND) (d : ℚ),
      nd.foldl (fun d p => if p.1.takeWhile (· ≠ '(') = e then d + p.2 else d) d =
        d + tsum nd e := by
    intro nd
    induction nd with
    | nil => intro d; simp [tsum]
    | cons p nd ih =>
      intro d
      rw [List.foldl_cons, ih, tsum_cons]
      split <;> ring
  unfold getTotalElement
  rw [this, zero_add]

theorem tsum_insert {m : ND} (hs : Sorted m) (k : Name) (v : ℚ) (e : Name) :
    tsum (OMap.insert m k v) e =
      tsum m e + (if k.takeWhile (· ≠ '(') = e then v - val m k else 0) := by
  induction m with
  | nil => simp [OMap.insert, tsum, val, find]
  | cons q m ih =>
    obtain ⟨a, w⟩ := q
    obtain ⟨h1, h2⟩ := List.pairwise_cons.mp hs
    simp only [OMap.insert]
    by_cases c1 : k < a
    · rw [if_pos c1, tsum_cons]
      have : val ((a, w) :: m) k = 0 := by
        refine val_of_none ?_
        intro hk
        obtain ⟨p, hp, rfl⟩ := List.mem_map.mp hk
        rcases List.mem_cons.mp hp with rfl | hp
        · exact lt_irrefl _ c1
        · exact lt_irrefl _ (lt_trans c1 (h1 p hp))
      rw [this, sub_zero]
      simp only
      ring
    · rw [if_neg c1]
      by_cases c2 : k = a
      · subst c2
        rw [if_pos rfl, tsum_cons, tsum_cons, val_cons, if_pos rfl]
        simp only
        split <;> ring
      · rw [if_neg c2, tsum_cons, tsum_cons, ih h2, val_cons, if_neg c2]
        ring

theorem tsum_addEntry {m : ND} (hs : Sorted m) (f : ℚ) (p : Name × ℚ) (e : Name) :
    tsum (addEntry f m p) e =
      tsum m e + (if p.1.takeWhile (· ≠ '(') = e then p.2 * f else 0) := by
  unfold addEntry
  split
  · rename_i cur h
    rw [tsum_insert hs]
    unfold val
    rw [h]
    simp
  · rename_i h
    rw [tsum_insert hs]
    unfold val
    rw [h]
    simp

theorem tsum_foldl (f : ℚ) (a : ND) : ∀ (m : ND), Sorted m → ∀ e,
    tsum (a.foldl (addEntry f) m) e = tsum m e + f * tsum a e := by
  induction a with
  | nil => intro m _ e; simp [tsum]
  | cons p a ih =>
    intro m hs e
    rw [List.foldl_cons, ih _ (sorted_addEntry f hs p), tsum_addEntry hs, tsum_cons]
    split <;> ring

theorem foldl_addEntry_keeps (f : ℚ) (P : Name → Prop) (a : ND) (ha : ∀ p ∈ a, P p.1) :
    ∀ (m : ND), Sorted m → (∀ p ∈ m, P p.1) →
      Sorted (a.foldl (addEntry f) m) ∧ ∀ p ∈ a.foldl (addEntry f) m, P p.1 := by
  induction a with
  | nil => intro m hs hm; exact ⟨hs, hm⟩
  | cons p a ih =>
    intro m hs hm
    rw [List.foldl_cons]
    refine ih (fun q hq => ha q (List.mem_cons_of_mem _ hq)) _ (sorted_addEntry f hs p) ?_
    intro q hq
    have : q.1 ∈ keys (addEntry f m p) := List.mem_map_of_mem hq
    rcases (keys_addEntry f m p q.1).mp this with e | hk
    · rw [e]; exact ha p List.mem_cons_self
    · obtain ⟨r, hr, hr'⟩ := List.mem_map.mp hk
      rw [← hr']; exact hm r hr

/-- Totals that are ordered and have good names. -/
def Plain (nd : ND) : Prop := Sorted nd ∧ ∀ p ∈ nd, GoodName p.1

theorem add_tsum {s a t : Solution} {x : ℚ} (h : s.add a x = .ok t) (hs : Plain s.totals)
    (ha : Plain a.totals) :
    Plain t.totals ∧ ∀ e, tsum t.totals e = tsum s.totals e + x * tsum a.totals e := by
  unfold Solution.add at h
  split at h
  · rename_i hx; cases h; exact ⟨hs, fun e => by rw [hx]; ring⟩
  · split at h
    · cases h
    · rename_i hx _
      cases h
      simp only [addExtensive, if_neg hx]
      exact ⟨foldl_addEntry_keeps _ _ _ ha.2 _ hs.1 hs.2, tsum_foldl _ _ _ hs.1⟩

theorem addAll_tsum (ps : List (Solution × ℚ)) (hP : ∀ p ∈ ps, Plain p.1.totals) :
    ∀ (s t : Solution), Plain s.totals → addAll s ps = .ok t →
      Plain t.totals ∧
        ∀ e, tsum t.totals e = tsum s.totals e + wsum (fun a => tsum a.totals e) ps := by
  induction ps with
  | nil => intro s t hs h; cases h; exact ⟨hs, fun e => by rw [wsum_nil, add_zero]⟩
  | cons p ps ih =>
    intro s t hs h
    obtain ⟨u, h1, h2⟩ := (addAll_cons _ _ _ _).mp h
    obtain ⟨a1, a2⟩ := add_tsum h1 hs (hP p List.mem_cons_self)
    obtain ⟨b1, b2⟩ := ih (fun q hq => hP q (List.mem_cons_of_mem _ hq)) u t a1 h2
    refine ⟨b1, fun e => ?_⟩
    rw [b2, a2, wsum_cons]
    ring

/-! ## A mixture of usable solutions -/

/-- The members of a mixture that the conversion uses. -/
structure Mixed (s : Solution) (ps : List (Solution × ℚ)) : Prop where
  ext   : ∀ X ∈ extensives, X s = wsum X ps
  elem  : ∀ e, tsum s.totals e = wsum (fun a => tsum a.totals e) ps
  dens  : s.massWater * s.density = wsum (fun a => a.massWater * a.density) ps
  plain : Plain s.totals

theorem mix_mixed (b : Bin) (m : Mix) (hu : ∀ p ∈ parts b m, Usable p.1 ∧ 0 ≤ p.2) :
    ∃ s, Solution.mix b m = .ok s ∧ Mixed s (parts b m) := by
  obtain ⟨s, hs⟩ := addAll_exists (parts b m) (fun p hp => ⟨(hu p hp).1.water, (hu p hp).2⟩)
    Solution.zero (le_refl _)
  refine ⟨s, by rw [mix_eq]; exact hs, ?_⟩
  obtain ⟨a1, a2⟩ := addAll_tsum _ (fun p hp => ⟨(hu p hp).1.ordered.totals, (hu p hp).1.names⟩)
    Solution.zero _ ⟨List.Pairwise.nil, by simp [Solution.zero]⟩ hs
  refine ⟨fun X hX => ?_, fun e => ?_, ?_, a1⟩
  · have := addAll_sum X (fun _ => True) (fun s a t x _ h => add_extensive h X hX) _
      (fun _ _ => trivial) _ _ hs
    rw [this]
    simp only [extensives, List.mem_cons, List.not_mem_nil, or_false] at hX
    rcases hX with rfl | rfl | rfl | rfl | rfl | rfl <;> simp [Solution.zero]
  · rw [a2]; simp [Solution.zero, tsum]
  · have := addAll_mean Solution.density (by simp [intensives]) _ _ _ hs
    rw [this]; simp [Solution.zero]

/-! ## Amounts -/

theorem total_tsum (nd : ND) (e : Name) : Total nd e (tsum nd e) := by
  rw [← getTotal_tsum]; exact getTotalElement_spec nd e

/-- Every component has an amount in every solution. -/
theorem amount_exists (h2o : Bool) (gw : ℚ) (es : List Name) (k : Nat)
    (hk : k < fixed h2o + es.length) (s : Solution) : ∃ m, Amount h2o gw es k s m := by
  unfold fixed at hk
  cases h2o
  · match k, hk with
    | 0, _ => exact ⟨_, rfl⟩
    | 1, _ => exact ⟨_, rfl⟩
    | 2, _ => exact ⟨_, rfl⟩
    | k + 3, hk =>
      simp only [Bool.false_eq_true, if_false] at hk
      have : k < es.length := by omega
      exact ⟨_, _, List.getElem?_eq_getElem this, total_tsum _ _⟩
  · match k, hk with
    | 0, _ => exact ⟨_, rfl⟩
    | 1, _ => exact ⟨_, rfl⟩
    | 2, _ => exact ⟨_, rfl⟩
    | 3, _ => exact ⟨_, rfl⟩
    | k + 4, hk =>
      simp only [if_true] at hk
      have : k < es.length := by omega
      exact ⟨_, _, List.getElem?_eq_getElem this, total_tsum _ _⟩

/-- Amounts are additive. -/
theorem amount_mix {h2o : Bool} {gw : ℚ} {es : List Name} {k : Nat} {s s1 s2 : Solution}
    {f1 f2 m1 m2 : ℚ}
    (hx : ∀ X ∈ extensives, X s = f1 * X s1 + f2 * X s2)
    (he : ∀ e, tsum s.totals e = f1 * tsum s1.totals e + f2 * tsum s2.totals e)
    (h1 : Amount h2o gw es k s1 m1) (h2 : Amount h2o gw es k s2 m2) :
    Amount h2o gw es k s (f1 * m1 + f2 * m2) := by
  have eH := hx Solution.totalH (by simp [extensives])
  have eO := hx Solution.totalO (by simp [extensives])
  have eC := hx Solution.cb (by simp [extensives])
  have eW := hx Solution.massWater (by simp [extensives])
  have el : ∀ {e}, Total s1.totals e m1 → Total s2.totals e m2 →
      Total s.totals e (f1 * m1 + f2 * m2) := by
    intro e a1 a2
    rw [total_unique a1 (total_tsum _ _), total_unique a2 (total_tsum _ _), ← he]
    exact total_tsum _ _
  cases h2o
  · match k, h1, h2 with
    | 0, h1, h2 => simp only [Amount] at *; rw [h1, h2, eH]
    | 1, h1, h2 => simp only [Amount] at *; rw [h1, h2, eO]
    | 2, h1, h2 => simp only [Amount] at *; rw [h1, h2, eC]
    | k + 3, ⟨e, g, a1⟩, ⟨e', g', a2⟩ =>
      rw [g] at g'; cases g'
      exact ⟨e, g, el a1 a2⟩
  · match k, h1, h2 with
    | 0, h1, h2 => simp only [Amount] at *; rw [h1, h2, eW]; ring
    | 1, h1, h2 => simp only [Amount] at *; rw [h1, h2, eW, eH]; ring
    | 2, h1, h2 => simp only [Amount] at *; rw [h1, h2, eW, eO]; ring
    | 3, h1, h2 => simp only [Amount] at *; rw [h1, h2, eC]
    | k + 4, ⟨e, g, a1⟩, ⟨e', g', a2⟩ =>
      rw [g] at g'; cases g'
      exact ⟨e, g, el a1 a2⟩

/-! ## Conversion -/

theorem comps_length {st : Init} {es : List Name} (hr : Ready st es) :
    st.comps.length = fixed st.h2o + es.length := by
  rw [hr.comps]; unfold fixed
  cases st.h2o <;> simp <;> omega

theorem conv_spec {st : Init} {es : List Name} (hr : Ready st es) (s : Solution)
    (hp : Plain s.totals) (hv : 0 < s.solnVol) (hd : 0 < s.density) :
    ∃ d, solution2conc st.h2o st.units st.comps st.gfw s.solnVol s.density (simplify (soln s)) =
        .ok d ∧ d.length = st.comps.length ∧
      ∀ (gw : ℚ) (k : Nat) (g m : ℚ), st.gfw[0]? = some gw → st.gfw[k]? = some g →
        Amount st.h2o gw es k s m →
        ∃ c, d[k]? = some c ∧ IsMolar st.units s.density g c (m / s.solnVol) := by
  obtain ⟨hc, hel, hl, hg, _⟩ := hr
  have hlen := comps_length ⟨hc, hel, hl, hg, ‹_›⟩
  have elem : ∀ (l : List ℚ) (gs : List ℚ), (∀ g ∈ gs, 0 < g) →
      (∀ (k : Nat) e g, es[k]? = some e → gs[k]? = some g →
        l[k]? = some (conc st.units s.solnVol s.density g (val (simplifyRedox s.totals) e))) →
      ∀ (k : Nat) e g m, es[k]? = some e → gs[k]? = some g → Total s.totals e m →
        ∃ c, l[k]? = some c ∧ IsMolar st.units s.density g c (m / s.solnVol) := by
    intro l gs hg hl k e g m h1 h2 h3
    have hm := List.mem_of_getElem? h1
    obtain ⟨_, n1, n2, n3⟩ := hel.good e hm
    have ev := simplifyRedox_total s.totals hp.1 hp.2 e n1 n2 n3
    rw [getTotal_tsum] at ev
    refine ⟨_, hl k e g h1 h2, ?_⟩
    rw [ev, ← total_unique h3 (total_tsum _ _)]
    exact conc_isMolar _ _ hv hd (hg g (List.mem_of_getElem? h2))
  unfold fixed at hlen
  cases hh : st.h2o
  · rw [hh] at hc hlen
    simp only [Bool.false_eq_true, if_false, List.nil_append, List.cons_append] at hc hlen
    rw [hc] at hl
    match hgf : st.gfw, hl with
    | gh :: go :: gq :: gs, hl =>
      rw [hgf] at hg
      have p1 := hg gh (by simp)
      have p2 := hg go (by simp)
      have p3 := hg gq (by simp)
      obtain ⟨l, e1, e2, e3⟩ := elementConcs_ok st.units s.solnVol s.density
        (simplifyRedox s.totals) es gs (by simpa using hl)
      refine ⟨conc st.units s.solnVol s.density gh s.totalH ::
        conc st.units s.solnVol s.density go s.totalO ::
        conc st.units s.solnVol s.density gq s.cb :: l, ?_, by simp [hc, e2], ?_⟩
      · rw [hc]
        simp only [solution2conc, simplify, soln, e1, Out.ok_bind]
        rw [if_neg (by simp)]
      · intro gw k g m hw hgk ha
        match k, ha with
        | 0, ha =>
          simp only [List.getElem?_cons_zero, Option.some.injEq] at hgk
          subst hgk
          simp only [Amount] at ha
          exact ⟨_, rfl, ha ▸ conc_isMolar _ _ hv hd p1⟩
        | 1, ha =>
          simp only [List.getElem?_cons_succ, List.getElem?_cons_zero, Option.some.injEq] at hgk
          subst hgk
          simp only [Amount] at ha
          exact ⟨_, rfl, ha ▸ conc_isMolar _ _ hv hd p2⟩
        | 2, ha =>
          simp only [List.getElem?_cons_succ, List.getElem?_cons_zero, Option.some.injEq] at hgk
          subst hgk
          simp only [Amount] at ha
          exact ⟨_, rfl, ha ▸ conc_isMolar _ _ hv hd p3⟩
        | k + 3, ⟨e, h1, h2⟩ =>
          simp only [List.getElem?_cons_succ] at hgk ⊢
          exact elem l gs (fun x hx => hg x (by simp [hx])) e3 k e g m h1 hgk h2
  · rw [hh] at hc hlen
    simp only [if_true, List.nil_append, List.cons_append] at hc hlen
    rw [hc] at hl
    match hgf : st.gfw, hl with
    | gw' :: gh :: go :: gq :: gs, hl =>
      rw [hgf] at hg
      have p0 := hg gw' (by simp)
      have p1 := hg gh (by simp)
      have p2 := hg go (by simp)
      have p3 := hg gq (by simp)
      obtain ⟨l, e1, e2, e3⟩ := elementConcs_ok st.units s.solnVol s.density
        (simplifyRedox s.totals) es gs (by simpa using hl)
      refine ⟨waterConc st.units s.solnVol s.density gw' s.massWater ::
        conc st.units s.solnVol s.density gh (s.totalH - 2 * (s.massWater * 1000 / gw')) ::
        conc st.units s.solnVol s.density go (s.totalO - s.massWater * 1000 / gw') ::
        conc st.units s.solnVol s.density gq s.cb :: l, ?_, by simp [hc, e2], ?_⟩
      · rw [hc]
        simp only [solution2conc, simplify, soln, e1, Out.ok_bind]
        rw [if_neg (by simp)]
      · intro gw k g m hw hgk ha
        simp only [List.getElem?_cons_zero, Option.some.injEq] at hw
        subst hw
        match k, ha with
        | 0, ha =>
          simp only [List.getElem?_cons_zero, Option.some.injEq] at hgk
          subst hgk
          simp only [Amount] at ha
          exact ⟨_, rfl, ha ▸ waterConc_isMolar _ _ hv hd p0⟩
        | 1, ha =>
          simp only [List.getElem?_cons_succ, List.getElem?_cons_zero, Option.some.injEq] at hgk
          subst hgk
          simp only [Amount] at ha
          exact ⟨_, rfl, ha ▸ conc_isMolar _ _ hv hd p1⟩
        | 2, ha =>
          simp only [List.getElem?_cons_succ, List.getElem?_cons_zero, Option.some.injEq] at hgk
          subst hgk
          simp only [Amount] at ha
          exact ⟨_, rfl, ha ▸ conc_isMolar _ _ hv hd p2⟩
        | 3, ha =>
          simp only [List.getElem?_cons_succ, List.getElem?_cons_zero, Option.some.injEq] at hgk
          subst hgk
          simp only [Amount] at ha
          exact ⟨_, rfl, ha ▸ conc_isMolar _ _ hv hd p3⟩
        | k + 4, ⟨e, h1, h2⟩ =>
          simp only [List.getElem?_cons_succ] at hgk ⊢
          exact elem l gs (fun x hx => hg x (by simp [hx])) e3 k e g m h1 hgk h2

/-! ## The mixture of an entry -/

theorem getLast_max {l : List Int} {k : Int} (hs : l.Pairwise (· < ·)) (hk : k ∈ l)
    (hm : ∀ j ∈ l, j ≤ k) : l.getLast? = some k := by
  cases hl : l.getLast? with
  | none => rw [List.getLast?_eq_none_iff] at hl; subst hl; cases hk
  | some a =>
    obtain ⟨ys, rfl⟩ := List.getLast?_eq_some_iff.mp hl
    have h1 := hm a (by simp)
    rcases List.mem_append.mp hk with h | h
    · have := (List.pairwise_append.mp hs).2.2 k h a (by simp)
      omega
    · simp at h; rw [h]

theorem resolve_first {st : Init} (hs : Sorted st.sols) {n : Int} {s : Solution}
    (h : First st n s) : 0 ≤ resolve st n ∧ find st.sols (resolve st n) = some s := by
  unfold resolve
  rcases h with ⟨h0, hf⟩ | ⟨h0, k, k0, hf, hk, hm⟩
  · rw [if_neg (by omega)]; exact ⟨h0, hf⟩
  · rw [if_pos h0]
    have hl : (keys st.sols).getLast? = some k :=
      getLast_max (List.pairwise_map.mpr hs)
        (List.mem_map.mpr ⟨(k, s), mem_of_find hf, rfl⟩) hk
    have e : next (keys st.sols) = k + 1 := by unfold next; rw [hl]
    have e2 : next st.mixes - 1 ≤ k := by
      unfold next
      split
      · rename_i j hj
        have := hm j (List.mem_of_getLast? hj)
        omega
      · omega
    simp only [e]
    have e3 : (if k + 1 ≠ 0 then k + 1 - 1 else n) = k := by rw [if_pos (by omega)]; omega
    rw [e3, if_neg (by omega)]
    exact ⟨k0, hf⟩

/-- Solutions in the bin are those of the instance. -/
def Same (st : Init) (b : Bin) : Prop := ∀ n x, 0 ≤ n → b n = some x → find st.sols n = some x

theorem copy_spec {st : Init} {b : Bin} (hb : Same st b) {n : Int} {s : Solution}
    (h : find st.sols n = some s) :
    Same st (copy st b n) ∧ copy st b n n = some s ∧
      ∀ k x, b k = some x → k ≠ n → copy st b n k = some x := by
  unfold copy
  rw [h]
  refine ⟨?_, by simp [Bin.set], ?_⟩
  · intro k x hk hx
    simp only [Bin.set] at hx
    split at hx
    · rename_i e; cases hx; rw [e]; exact h
    · exact hb k x hk hx
  · intro k x hx hk
    simp [Bin.set, hk, hx]

theorem fetch_spec {st : Init} {b : Bin} (hb : Same st b) {n : Int} {s : Solution} (h0 : 0 ≤ n)
    (h : find st.sols n = some s) :
    fetch1 st b n = fetch2 st b n ∧ Same st (fetch2 st b n) ∧ fetch2 st b n n = some s ∧
      ∀ k x, b k = some x → k ≠ n → fetch2 st b n k = some x := by
  unfold fetch1 fetch2
  cases hn : b n with
  | some x =>
    have := hb n x h0 hn
    rw [h] at this; cases this
    exact ⟨rfl, hb, hn, fun k x h _ => h⟩
  | none =>
    simp only [if_pos h0]
    exact ⟨trivial, copy_spec hb h⟩

/-- What the mixture of an entry is: parts of `s1` and of `s2`. -/
structure Outcome (st : Init) (b : Bin) (m : Mix) (s1 s2 : Solution) (f1 f2 : ℚ) : Prop where
  same  : Same st b
  parts : ∀ p ∈ parts b m, Usable p.1 ∧ 0 ≤ p.2
  sums  : ∀ X : Solution → ℚ, wsum X (Mixing.parts b m) = f1 * X s1 + f2 * X s2
  pos   : 0 < f1 + f2
  nn1   : 0 ≤ f1
  nn2   : 0 ≤ f2

theorem keys_add {m : Mix} {n : Int} {f : ℚ} {p : Int × ℚ} (h : p ∈ Mix.add m n f) :
    p.1 = n ∨ p ∈ m := by
  unfold Mix.add at h
  split at h <;> rcases mem_insert_key h with rfl | h
  · exact .inl rfl
  · exact .inr h
  · exact .inl rfl
  · exact .inr h

theorem mixture_alone {st : Init} (hs : Sorted st.sols) {b2 : List Int} {fr : List ℚ} {i : Nat}
    {n : Int} {b : Bin} {s1 : Solution} {f : ℚ} (hb : Same st b) (h1 : First st n s1)
    (hu : Usable s1) (ha : Alone b2 i ∨ f = 1) (hf : Fraction fr i f) (h0 : 0 < f) :
    Outcome st (mixture st b2 fr i n b).1 (mixture st b2 fr i n b).2 s1 s1 f 0 := by
  obtain ⟨r0, r1⟩ := resolve_first hs h1
  obtain ⟨a1, a2, a3, _⟩ := fetch_spec hb r0 r1
  have ef : fractionAt fr i = f := by
    unfold fractionAt
    rcases hf with h | ⟨h, e⟩ <;> rw [h]
    exact e.symm
  have hc : ¬ (0 ≤ secondAt b2 i ∧ 0 < 1 - f) := by
    unfold secondAt
    rintro ⟨c1, c2⟩
    rcases ha with ha | rfl
    · cases hk : b2[i]? with
      | none => rw [hk] at c1; simp at c1
      | some k => rw [hk] at c1; have := ha k hk; simp only at c1; omega
    · simp at c2
  have em : mixture st b2 fr i n b = (fetch2 st b (resolve st n), Mix.add [] (resolve st n) f) := by
    unfold mixture
    simp only [ef, a1]
    rw [if_neg hc]
  rw [em]
  dsimp only
  have nn : ∀ p ∈ Mix.add [] (resolve st n) f, 0 ≤ p.2 :=
    InitCond.nonneg_add (by simp) _ (le_of_lt h0)
  refine ⟨a2, ?_, ?_, by linarith, le_of_lt h0, le_refl _⟩
  · intro p hp
    obtain ⟨q, hq, hq'⟩ := List.mem_filterMap.mp hp
    obtain ⟨a, hq2, rfl⟩ := Option.map_eq_some_iff.mp hq'
    rcases keys_add hq with e | e
    · rw [e, a3] at hq2; cases hq2; exact ⟨hu, nn q hq⟩
    · cases e
  · intro X
    rw [InitCond.parts_insert _ _ _ _ _ List.Pairwise.nil, a3]
    simp [Mixing.parts, wsum]

theorem mixture_both {st : Init} (hs : Sorted st.sols) {b2 : List Int} {fr : List ℚ} {i : Nat}
    {n n2 : Int} {b : Bin} {s1 s2 : Solution} {f : ℚ} (hb : Same st b) (h1 : First st n s1)
    (hu : Usable s1) (h2 : b2[i]? = some n2) (h20 : 0 ≤ n2) (h2s : find st.sols n2 = some s2)
    (hu2 : Usable s2) (hf : Fraction fr i f) (h0 : 0 ≤ f) (hf1 : f < 1) :
    Outcome st (mixture st b2 fr i n b).1 (mixture st b2 fr i n b).2 s1 s2 f (1 - f) := by
  obtain ⟨r0, r1⟩ := resolve_first hs h1
  obtain ⟨a1, a2, a3, _⟩ := fetch_spec hb r0 r1
  obtain ⟨_, c2, c3, c4⟩ := fetch_spec a2 h20 h2s
  have ef : fractionAt fr i = f := by
    unfold fractionAt
    rcases hf with h | ⟨h, e⟩ <;> rw [h]
    exact e.symm
  have em : mixture st b2 fr i n b = (fetch2 st (fetch2 st b (resolve st n)) n2,
      Mix.add (Mix.add [] (resolve st n) f) n2 (1 - f)) := by
    unfold mixture
    have e2 : secondAt b2 i = n2 := by unfold secondAt; rw [h2]
    simp only [ef, a1, e2]
    rw [if_pos ⟨h20, by linarith⟩]
  rw [em]
  dsimp only
  have a5 : fetch2 st (fetch2 st b (resolve st n)) n2 (resolve st n) = some s1 := by
    by_cases e : resolve st n = n2
    · rw [← r1, e, h2s, ← c3, e]
    · exact c4 _ _ a3 e
  have nn : ∀ p ∈ Mix.add (Mix.add [] (resolve st n) f) n2 (1 - f), 0 ≤ p.2 :=
    InitCond.nonneg_add (InitCond.nonneg_add (by simp) _ h0) _ (by linarith)
  refine ⟨c2, ?_, ?_, by linarith, h0, by linarith⟩
  · intro p hp
    obtain ⟨q, hq, hq'⟩ := List.mem_filterMap.mp hp
    obtain ⟨a, hq2, rfl⟩ := Option.map_eq_some_iff.mp hq'
    rcases keys_add hq with e | e
    · rw [e, c3] at hq2; cases hq2; exact ⟨hu2, nn q hq⟩
    · rcases keys_add e with e | e
      · rw [e, a5] at hq2; cases hq2; exact ⟨hu, nn q hq⟩
      · cases e
  · intro X
    rw [InitCond.parts_insert _ _ _ _ _ (InitCond.sorted_add List.Pairwise.nil _ _),
      InitCond.parts_insert _ _ _ _ _ List.Pairwise.nil, c3, a5]
    simp [Mixing.parts, wsum]

/-- Concentrations of a mixture of two usable solutions. -/
theorem concs_spec {st : Init} {es : List Name} (hr : Ready st es) {b : Bin} {m : Mix}
    {s1 s2 : Solution} {f1 f2 : ℚ} (ho : Outcome st b m s1 s2 f1 f2) (hu1 : Usable s1)
    (hu2 : Usable s2) :
    ∃ d, concs st b m = .ok d ∧ d.length = st.comps.length ∧
      ∀ (gw : ℚ) (k : Nat) (g m1 m2 : ℚ), st.gfw[0]? = some gw → st.gfw[k]? = some g →
        Amount st.h2o gw es k s1 m1 → Amount st.h2o gw es k s2 m2 →
        ∃ c, d[k]? = some c ∧
          IsMolar st.units ((f1 * (s1.massWater * s1.density) + f2 * (s2.massWater * s2.density)) /
              (f1 * s1.massWater + f2 * s2.massWater)) g c
            ((f1 * m1 + f2 * m2) / (f1 * s1.solnVol + f2 * s2.solnVol)) := by
  obtain ⟨s, hs, hm⟩ := mix_mixed b m ho.parts
  have pos : ∀ x y : ℚ, 0 < x → 0 < y → 0 < f1 * x + f2 * y := by
    intro x y hx hy
    rcases lt_or_eq_of_le ho.nn1 with h | h
    · have := mul_pos h hx; have := mul_nonneg ho.nn2 (le_of_lt hy); linarith
    · have h2 : 0 < f2 := by have := ho.pos; linarith
      have := mul_nonneg ho.nn1 (le_of_lt hx); have := mul_pos h2 hy; linarith
  have hx : ∀ X ∈ extensives, X s = f1 * X s1 + f2 * X s2 := fun X hX => by
    rw [hm.ext X hX, ho.sums]
  have he : ∀ e, tsum s.totals e = f1 * tsum s1.totals e + f2 * tsum s2.totals e := fun e => by
    rw [hm.elem, ho.sums]
  have hv := hx Solution.solnVol (by simp [extensives])
  have hw := hx Solution.massWater (by simp [extensives])
  have hv0 : 0 < s.solnVol := by rw [hv]; exact pos _ _ hu1.vol hu2.vol
  have hw0 : 0 < s.massWater := by rw [hw]; exact pos _ _ hu1.water hu2.water
  have hd : s.massWater * s.density =
      f1 * (s1.massWater * s1.density) + f2 * (s2.massWater * s2.density) := by
    rw [hm.dens, ho.sums]
  have hd0 : 0 < s.density := by
    have := pos _ _ (mul_pos hu1.water hu1.dens) (mul_pos hu2.water hu2.dens)
    rw [← hd] at this
    exact (mul_pos_iff_of_pos_left hw0).mp this
  obtain ⟨d, d1, d2, d3⟩ := conv_spec hr s hm.plain hv0 hd0
  refine ⟨d, ?_, d2, ?_⟩
  · unfold concs
    have hg : st.gfw ≠ [] := by
      intro h
      have := hr.gfwl
      rw [h, hr.comps] at this
      cases st.h2o <;> simp at this
    rw [hs, Out.ok_bind, if_neg hg, if_neg (ne_of_gt hv0), if_neg (fun h => ne_of_gt hd0 h.2)]
    exact d1
  · intro gw k g m1 m2 h1 h2 a1 a2
    obtain ⟨c, c1, c2⟩ := d3 gw k g _ h1 h2 (amount_mix hx he a1 a2)
    refine ⟨c, c1, ?_⟩
    rw [← hd, ← hw, ← hv, mul_div_cancel_left₀ _ (ne_of_gt hw0)]
    exact c2

end Verif.Boundary
