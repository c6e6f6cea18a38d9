import Verif.Assemble.Spec
import Mathlib.Tactic.Ring
import Mathlib.Tactic.Linarith

/-! # Helper lemmas: how the sums change -/

namespace Verif.Assemble

open Spec

/-- The sum of an account. -/
def St.get (st : St) : Acct → ℚ
  | .elt e => st.tot e
  | .h => st.h
  | .o => st.o

theorem Res.bind_ok {α β : Type} {r : Res α} {f : α → Res β} {b : β} (h : r.bind f = .ok b) :
    ∃ a, r = .ok a ∧ f a = .ok b := by
  cases r <;> simp [Res.bind] at h
  exact ⟨_, rfl, h⟩

theorem exact_name {db : Db} {n : Name} {m : Master} (h : db.exact n = some m) : m.name = n := by
  have := List.find?_some h
  simpa using this

theorem exact_mem {db : Db} {n : Name} {m : Master} (h : db.exact n = some m) : m ∈ db.masters :=
  List.mem_of_find?_eq_some h

theorem amount_nil (db : Db) (a : Acct) : amount db a [] = 0 := rfl

theorem amount_cons (db : Db) (a : Acct) (x : Name × ℚ) (l : Amounts) :
    amount db a (x :: l) = (if belongs db a x.1 then x.2 else 0) + amount db a l := by
  simp [amount]

theorem amount_append (db : Db) (a : Acct) (l k : Amounts) : amount db a (l ++ k) = amount db a l + amount db a k := by
  simp [amount]

theorem amount_scale (db : Db) (a : Acct) (l : Amounts) (f : ℚ) :
    amount db a (l.map fun y => (y.1, y.2 * f)) = amount db a l * f := by
  induction l with
  | nil => simp [amount]
  | cons x l ih =>
    rw [List.map_cons, amount_cons, amount_cons, ih]
    dsimp only
    split_ifs <;> ring

/-- What belongs to an account that is kept has the master species the code finds. -/
theorem belongs_elt {db : Db} {e n : Name} (he : Element db e) (h : db.first n = e) :
    ∃ m, db.prim n = some m ∧ m.name = e ∧ m.sp ≠ .hplus ∧ m.sp ≠ .h2o := by
  obtain ⟨m, _, h1, h2, h3, h4⟩ := he
  exact ⟨m, by rw [Db.prim, h, h2], h1, h3, h4⟩

theorem get_addElt {db : Db} {a : Acct} (ha : Kept db a) {n : Name} {m : Master} (hm : db.prim n = some m) (st : St) (d : ℚ) :
    (st.addElt m d).get a = st.get a + if belongs db a n then d else 0 := by
  have hn : m.name = db.first n := exact_name hm
  cases a with
  | elt e =>
    by_cases hb : db.first n = e
    · obtain ⟨m', h1, h2, h3, h4⟩ := belongs_elt ha hb
      rw [hm] at h1; cases h1
      unfold St.addElt
      cases hs : m.sp with
      | hplus => exact absurd hs h3
      | h2o => exact absurd hs h4
      | eminus => simp [St.get, St.addTot, belongs, hb, h2]
      | other => simp [St.get, St.addTot, belongs, hb, h2]
    · have hne : ¬ e = m.name := fun h => hb (by rw [h, hn])
      unfold St.addElt
      cases hs : m.sp <;> simp [St.get, St.addTot, belongs, hb, hne]
  | h =>
    unfold St.addElt
    cases hs : m.sp <;> simp [St.get, St.addTot, belongs, hm, hs]
  | o =>
    unfold St.addElt
    cases hs : m.sp <;> simp [St.get, St.addTot, belongs, hm, hs]

theorem addElt_rest (st : St) (m : Master) (d : ℚ) :
    (st.addElt m d).cb = st.cb ∧ (st.addElt m d).water = st.water ∧ (st.addElt m d).inten = st.inten := by
  unfold St.addElt
  cases m.sp <;> simp [St.addTot]

/-- A name that is not in the data base does not belong to an account that is kept. -/
theorem not_belongs {db : Db} {a : Acct} (ha : Kept db a) {n : Name} (hm : db.prim n = none) : belongs db a n = false := by
  cases a with
  | elt e =>
    by_contra hb
    obtain ⟨m, h1, _⟩ := belongs_elt ha (show db.first n = e by simpa [belongs] using hb)
    rw [hm] at h1; cases h1
  | h => simp [belongs, hm]
  | o => simp [belongs, hm]

theorem addElts_get {db : Db} {a : Acct} (ha : Kept db a) (u : Unknown) (l : Amounts) (f : ℚ) (st st' : St)
    (h : addElts db u l f st = .ok st') : st'.get a = st.get a + amount db a l * f := by
  induction l generalizing st with
  | nil =>
    simp only [addElts, Res.ok.injEq] at h
    subst h
    simp [amount]
  | cons x l ih =>
    rw [addElts.eq_def] at h
    dsimp only at h
    cases hm : db.prim x.1 with
    | some m =>
      simp only [hm] at h
      rw [ih _ h, get_addElt ha hm, amount_cons]
      split_ifs <;> ring
    | none =>
      simp only [hm] at h
      cases u with
      | skip =>
        dsimp only at h
        rw [ih _ h, amount_cons, not_belongs ha hm]
        simp
      | stop => cases h
      | ub => cases h

theorem addElts_rest {db : Db} (u : Unknown) (l : Amounts) (f : ℚ) (st st' : St)
    (h : addElts db u l f st = .ok st') : st'.cb = st.cb ∧ st'.water = st.water ∧ st'.inten = st.inten := by
  induction l generalizing st with
  | nil =>
    simp only [addElts, Res.ok.injEq] at h
    subst h
    exact ⟨rfl, rfl, rfl⟩
  | cons x l ih =>
    rw [addElts.eq_def] at h
    dsimp only at h
    cases hm : db.prim x.1 with
    | some m =>
      simp only [hm] at h
      obtain ⟨h1, h2, h3⟩ := addElt_rest st m (x.2 * f)
      obtain ⟨k1, k2, k3⟩ := ih _ h
      exact ⟨k1.trans h1, k2.trans h2, k3.trans h3⟩
    | none =>
      simp only [hm] at h
      cases u with
      | skip => exact ih _ h
      | stop => cases h
      | ub => cases h

/-! ## Solutions -/

theorem addSolutionElt_get {db : Db} {a : Acct} (ha : Kept db a) (ext : ℚ) (l : Amounts) (st : St) :
    (l.foldl (addSolutionElt db ext) st).get a
      = st.get a + match a with
        | .elt e => amount db (.elt e) l * ext
        | _ => 0 := by
  induction l generalizing st with
  | nil => cases a <;> simp [amount]
  | cons x l ih =>
    rw [List.foldl_cons, ih]
    cases hm : db.prim x.1 with
    | some m =>
      have hn : m.name = db.first x.1 := exact_name hm
      cases a with
      | elt e =>
        simp only [addSolutionElt, hm, amount_cons, St.get, St.addTot]
        by_cases hb : db.first x.1 = e
        · have hb' : belongs db (.elt e) x.1 = true := by simp [belongs, hb]
          rw [if_pos (by rw [hn, hb]), hb', if_pos rfl]
          ring
        · have hb' : belongs db (.elt e) x.1 = false := by simp [belongs, hb]
          rw [if_neg (by rw [hn]; exact fun h => hb h.symm), hb']
          simp
      | h => simp [addSolutionElt, hm, St.get, St.addTot]
      | o => simp [addSolutionElt, hm, St.get, St.addTot]
    | none =>
      cases a with
      | elt e =>
        have := not_belongs ha hm
        simp [addSolutionElt, hm, amount_cons, St.get, this]
      | h => simp [addSolutionElt, hm, St.get]
      | o => simp [addSolutionElt, hm, St.get]

theorem addSolutionElt_rest {db : Db} (ext : ℚ) (l : Amounts) (st : St) :
    (l.foldl (addSolutionElt db ext) st).cb = st.cb ∧ (l.foldl (addSolutionElt db ext) st).water = st.water
      ∧ (l.foldl (addSolutionElt db ext) st).inten = st.inten := by
  induction l generalizing st with
  | nil => exact ⟨rfl, rfl, rfl⟩
  | cons x l ih =>
    rw [List.foldl_cons]
    obtain ⟨h1, h2, h3⟩ := ih (addSolutionElt db ext st x)
    rw [h1, h2, h3]
    unfold addSolutionElt
    cases db.prim x.1 <;> exact ⟨rfl, rfl, rfl⟩

theorem addSolution_get {db : Db} {a : Acct} (ha : Kept db a) (s : Solution) (ext w : ℚ) (st : St) :
    (addSolution db s ext w st).get a = st.get a + inSolution db s a * ext := by
  unfold addSolution
  rw [addSolutionElt_get ha]
  cases a <;> simp [St.get, inSolution]

theorem addSolution_rest (db : Db) (s : Solution) (ext w : ℚ) (st : St) :
    (addSolution db s ext w st).cb = st.cb + s.cb * ext ∧ (addSolution db s ext w st).water = st.water + s.water * ext
      ∧ ∀ i, (addSolution db s ext w st).inten i = st.inten i + s.inten i * w := by
  unfold addSolution
  obtain ⟨h1, h2, h3⟩ := addSolutionElt_rest (db := db) ext s.totals
    { st with
      inten := fun i => st.inten i + s.inten i * w
      h := st.h + s.h * ext
      o := st.o + s.o * ext
      cb := st.cb + s.cb * ext
      water := st.water + s.water * ext }
  exact ⟨h1, h2, fun i => by rw [h3]⟩

/-- The solutions of a mix. -/
def mixParts (sols : Int → Option Solution) (l : List (Int × ℚ)) : List (ℚ × Solution) :=
  l.filterMap fun x => (sols x.1).map fun s => (x.2, s)

theorem mixOne_fold_bad (db : Db) (sols : Int → Option Solution) (a : MixSum) (n : Nat) (l : List (Int × ℚ)) (r : Res St) (st : St)
    (h : l.foldl (mixOne db sols a n) r = .ok st) : ∃ s, r = .ok s := by
  induction l generalizing r with
  | nil => exact ⟨st, h⟩
  | cons x l ih =>
    obtain ⟨s, hs⟩ := ih _ h
    obtain ⟨s', h', _⟩ := Res.bind_ok hs
    exact ⟨s', h'⟩

theorem mixOne_get {db : Db} {a : Acct} (ha : Kept db a) (sols : Int → Option Solution) (k : MixSum) (n : Nat)
    (l : List (Int × ℚ)) (st st' : St) (h : l.foldl (mixOne db sols k n) (.ok st) = .ok st') :
    st'.get a = st.get a + ((mixParts sols l).map fun p => inSolution db p.2 a * p.1).sum
      ∧ st'.cb = st.cb + ((mixParts sols l).map fun p => p.2.cb * p.1).sum
      ∧ st'.water = st.water + ((mixParts sols l).map fun p => p.2.water * p.1).sum := by
  induction l generalizing st with
  | nil =>
    simp only [List.foldl_nil, Res.ok.injEq] at h
    subst h
    simp [mixParts]
  | cons x l ih =>
    rw [List.foldl_cons] at h
    obtain ⟨s, hs⟩ := mixOne_fold_bad _ _ _ _ _ _ _ h
    rw [hs] at h
    obtain ⟨i1, i2, i3⟩ := ih s h
    simp only [mixOne, Res.bind] at hs
    cases hx : sols x.1 with
    | none =>
      simp only [hx, Res.ok.injEq] at hs
      subst hs
      rw [i1, i2, i3]
      cases a <;> simp [mixParts, hx, St.get]
    | some s0 =>
      simp only [hx] at hs
      cases hw : weight k n x.2 s0 with
      | none => rw [hw] at hs; cases hs
      | some w =>
        rw [hw] at hs
        simp only [Res.ok.injEq] at hs
        subst hs
        obtain ⟨r1, r2, _⟩ := addSolution_rest db s0 x.2 w st
        rw [i1, i2, i3, addSolution_get ha, r1, r2]
        rw [show mixParts sols (x :: l) = (x.2, s0) :: mixParts sols l by simp [mixParts, hx]]
        simp only [List.map_cons, List.sum_cons]
        refine ⟨?_, ?_, ?_⟩ <;> ring

/-! ## The other parts -/

theorem addWater_get {db : Db} {a : Acct} (ha : Kept db a) (i : Input) (st st' : St) (h : addWater db i st = .ok st') :
    st'.get a = st.get a + ((parts i).map fun p => inSolution db p.2 a * p.1).sum
      ∧ st'.cb = st.cb + ((parts i).map fun p => p.2.cb * p.1).sum
      ∧ st'.water = st.water + ((parts i).map fun p => p.2.water * p.1).sum := by
  unfold addWater at h
  cases hw : i.water with
  | mix l =>
    simp only [hw, addMix] at h
    obtain ⟨h1, h2, h3⟩ := mixOne_get ha _ _ _ _ _ _ h
    have hg : ∀ e, St.get { st with errors := e } a = st.get a := by intro e; cases a <;> rfl
    rw [h1, h2, h3, hg]
    simp only [parts, hw]
    exact ⟨rfl, rfl, rfl⟩
  | one s =>
    simp only [hw, Res.ok.injEq] at h
    subst h
    obtain ⟨r1, r2, _⟩ := addSolution_rest db s 1 1 st
    rw [addSolution_get ha, r1, r2]
    simp [parts, hw]
  | missing => simp only [hw] at h; cases h

theorem get_errors (st : St) (e : Nat) (a : Acct) : St.get { st with errors := e } a = st.get a := by cases a <;> rfl

theorem get_cb (st : St) (e : ℚ) (a : Acct) : St.get { st with cb := e } a = st.get a := by cases a <;> rfl

theorem reactionElts_amount (db : Db) (a : Acct) (l : Amounts) :
    amount db a (reactionElts db l) = (l.map fun x => amount db a (composition db x.1) * x.2).sum := by
  induction l with
  | nil => simp [reactionElts, amount]
  | cons x l ih =>
    rw [reactionElts, amount_append, ih, List.map_cons, List.sum_cons]
    congr 1
    unfold composition
    cases db.phase x.1 <;> exact amount_scale ..

theorem unit_eq (c : Char) : unitFactor c = unit c := by
  unfold unitFactor unit
  split_ifs with h1 h2 h3
  · subst h1; norm_num
  · subst h2; norm_num
  · subst h3; norm_num
  · split <;> simp_all

theorem addReaction_get {db : Db} {a : Acct} (ha : Kept db a) (r : Reaction) (f : ℚ) (st st' : St)
    (h : addReaction db r f st = .ok st') :
    st'.get a = st.get a + inReaction db a f r ∧ st'.cb = st.cb ∧ st'.water = st.water ∧ st'.inten = st.inten := by
  unfold addReaction at h
  dsimp only at h
  refine ⟨?_, ?_⟩
  · rw [addElts_get ha _ _ _ _ _ h, get_errors, reactionElts_amount, unit_eq]
    rfl
  · obtain ⟨k1, k2, k3⟩ := addElts_rest _ _ _ _ _ h
    exact ⟨k1, k2, k3⟩

theorem addExComps_get {db : Db} {a : Acct} (ha : Kept db a) (l : List ExComp) (st st' : St)
    (h : addExComps db l st = .ok st') :
    st'.get a = st.get a + (l.map fun c => amount db a c.totals).sum ∧ st'.cb = st.cb ∧ st'.water = st.water
      ∧ st'.inten = st.inten := by
  induction l generalizing st with
  | nil =>
    simp only [addExComps, Res.ok.injEq] at h
    subst h
    simp
  | cons c l ih =>
    rw [addExComps] at h
    obtain ⟨s, h1, h2⟩ := Res.bind_ok h
    obtain ⟨i1, i2, i3, i4⟩ := ih _ h2
    obtain ⟨j2, j3, j4⟩ := addElts_rest _ _ _ _ _ h1
    refine ⟨?_, i2.trans j2, i3.trans j3, i4.trans j4⟩
    rw [i1, addElts_get ha _ _ _ _ _ h1, List.map_cons, List.sum_cons]
    ring

theorem addExchange_get {db : Db} {a : Acct} (ha : Kept db a) (x : Exchange) (st st' : St)
    (h : addExchange db x st = .ok st') :
    st'.get a = st.get a + (x.comps.map fun c => amount db a c.totals).sum
      ∧ st'.cb = st.cb + (if x.newDef then 0 else (x.comps.map fun c => c.charge).sum)
      ∧ st'.water = st.water ∧ st'.inten = st.inten := by
  unfold addExchange at h
  obtain ⟨s, h1, h2⟩ := Res.bind_ok h
  obtain ⟨i1, i2, i3, i4⟩ := addExComps_get ha _ _ _ h1
  split_ifs at h2 with hd
  · simp only [Res.ok.injEq] at h2
    subst h2
    simp [hd, i1, i2, i3, i4]
  · simp only [Res.ok.injEq] at h2
    subst h2
    rw [get_cb]
    simp [hd, i1, i2, i3, i4]

theorem addSurfComps_get {db : Db} {a : Acct} (ha : Kept db a) (t : SurfType) (l : List SurfComp) (st st' : St)
    (h : addSurfComps db t l st = .ok st') :
    st'.get a = st.get a + (l.map fun c => amount db a c.totals).sum
      ∧ st'.cb = st.cb + (if t = .noEdl then (l.map fun c => c.charge).sum else 0) ∧ st'.water = st.water
      ∧ st'.inten = st.inten := by
  induction l generalizing st with
  | nil =>
    simp only [addSurfComps, Res.ok.injEq] at h
    subst h
    simp
  | cons c l ih =>
    rw [addSurfComps] at h
    cases hm : db.exact c.master with
    | none => rw [hm] at h; cases h
    | some m =>
      rw [hm] at h
      dsimp only at h
      obtain ⟨s, h1, h2⟩ := Res.bind_ok h
      obtain ⟨i1, i2, i3, i4⟩ := ih _ h2
      obtain ⟨j2, j3, j4⟩ := addElts_rest _ _ _ _ _ h1
      have j1 := addElts_get ha _ _ _ _ _ h1
      by_cases ht : t = .noEdl
      · simp only [ht, if_true] at j1 j2 j3 j4 i2 ⊢
        rw [get_cb st (st.cb + c.charge)] at j1
        refine ⟨?_, ?_, i3.trans j3, i4.trans j4⟩
        · rw [i1, j1, List.map_cons, List.sum_cons]; ring
        · rw [i2, j2, List.map_cons, List.sum_cons]; ring
      · simp only [ht, if_false] at j1 j2 j3 j4 i2 ⊢
        refine ⟨?_, ?_, i3.trans j3, i4.trans j4⟩
        · rw [i1, j1, List.map_cons, List.sum_cons]; ring
        · rw [i2, j2]

theorem addDiffuse_get {db : Db} {a : Acct} (ha : Kept db a) (l : Amounts) (st st' : St)
    (hl : ∀ y ∈ l, db.first y.1 = y.1) (h : addDiffuse db l st = .ok st') :
    st'.get a = st.get a + amount db a l ∧ st'.cb = st.cb ∧ st'.water = st.water ∧ st'.inten = st.inten := by
  induction l generalizing st with
  | nil =>
    simp only [addDiffuse, Res.ok.injEq] at h
    subst h
    simp [amount]
  | cons x l ih =>
    rw [addDiffuse] at h
    cases hm : db.exact x.1 with
    | none => rw [hm] at h; cases h
    | some m =>
      rw [hm] at h
      dsimp only at h
      obtain ⟨i1, i2, i3, i4⟩ := ih _ (fun y hy => hl y (List.mem_cons_of_mem _ hy)) h
      have hp : db.prim x.1 = some m := by rw [Db.prim, hl x (List.mem_cons_self ..), hm]
      obtain ⟨j2, j3, j4⟩ := addElt_rest st m x.2
      refine ⟨?_, i2.trans j2, i3.trans j3, i4.trans j4⟩
      rw [i1, get_addElt ha hp, amount_cons]
      ring

theorem addCharges_get {db : Db} {a : Acct} (ha : Kept db a) (layer : Bool) (l : List SurfCharge) (st st' : St)
    (hl : ∀ c ∈ l, ∀ y ∈ c.diffuse, db.first y.1 = y.1) (h : addCharges db layer l st = .ok st') :
    st'.get a = st.get a + (if layer = true then (l.map fun c => amount db a c.diffuse).sum else 0)
      ∧ st'.cb = st.cb + (l.map fun c => c.charge).sum ∧ st'.water = st.water ∧ st'.inten = st.inten := by
  induction l generalizing st with
  | nil =>
    simp only [addCharges, Res.ok.injEq] at h
    subst h
    simp
  | cons c l ih =>
    rw [addCharges] at h
    obtain ⟨s, h1, h2⟩ := Res.bind_ok h
    obtain ⟨i1, i2, i3, i4⟩ := ih _ (fun y hy => hl y (List.mem_cons_of_mem _ hy)) h2
    cases layer with
    | true =>
      simp only [if_true] at h1 i1 ⊢
      obtain ⟨j1, j2, j3, j4⟩ := addDiffuse_get ha _ _ _ (hl c (List.mem_cons_self ..)) h1
      rw [get_cb st (st.cb + c.charge)] at j1
      refine ⟨?_, ?_, i3.trans j3, i4.trans j4⟩
      · rw [i1, j1, List.map_cons, List.sum_cons]; ring
      · rw [i2, j2, List.map_cons, List.sum_cons]; ring
    | false =>
      simp only [Bool.false_eq_true, if_false, Res.ok.injEq] at h1 i1 ⊢
      subst h1
      rw [get_cb st (st.cb + c.charge)] at i1
      refine ⟨by rw [i1], ?_, i3, i4⟩
      rw [i2, List.map_cons, List.sum_cons]; ring

theorem addSurface_get {db : Db} {a : Acct} (ha : Kept db a) (x : Surface) (st st' : St)
    (hl : ∀ c ∈ x.charges, ∀ y ∈ c.diffuse, db.first y.1 = y.1) (h : addSurface db x st = .ok st') :
    st'.get a = st.get a + inSurface db a x
      ∧ st'.cb = st.cb + surfaceCharge x
      ∧ st'.water = st.water ∧ st'.inten = st.inten := by
  unfold addSurface at h
  obtain ⟨s, h1, h2⟩ := Res.bind_ok h
  obtain ⟨i1, i2, i3, i4⟩ := addSurfComps_get ha _ _ _ _ h1
  unfold inSurface surfaceCharge
  cases ht : x.type with
  | unknown =>
    simp only [ht, reduceCtorEq, if_false, Res.ok.injEq, false_and] at h2 i2 ⊢
    subst h2
    exact ⟨by rw [i1, add_zero], i2, i3, i4⟩
  | noEdl =>
    simp only [ht, reduceCtorEq, if_false, Res.ok.injEq, false_and, if_true] at h2 i2 ⊢
    subst h2
    exact ⟨by rw [i1, add_zero], i2, i3, i4⟩
  | edl =>
    simp only [ht, reduceCtorEq, if_false, if_true, true_and] at h2 i2 ⊢
    obtain ⟨j1, j2, j3, j4⟩ := addCharges_get ha _ _ _ _ hl h2
    refine ⟨?_, by rw [j2, i2, add_zero], j3.trans i3, j4.trans i4⟩
    rw [j1, i1]
    cases x.layer <;> cases x.newDef <;> simp <;> ring

theorem addDiffuse_inten {db : Db} (l : Amounts) (st st' : St) (h : addDiffuse db l st = .ok st') : st'.inten = st.inten := by
  induction l generalizing st with
  | nil =>
    cases h
    rfl
  | cons x l ih =>
    rw [addDiffuse] at h
    cases hm : db.exact x.1 with
    | none => rw [hm] at h; cases h
    | some m =>
      rw [hm] at h
      rw [ih _ h]
      exact (addElt_rest st m x.2).2.2

theorem addCharges_inten {db : Db} (layer : Bool) (l : List SurfCharge) (st st' : St) (h : addCharges db layer l st = .ok st') :
    st'.inten = st.inten := by
  induction l generalizing st with
  | nil =>
    cases h
    rfl
  | cons c l ih =>
    rw [addCharges] at h
    obtain ⟨s, h1, h2⟩ := Res.bind_ok h
    rw [ih _ h2]
    cases layer with
    | true =>
      rw [if_pos rfl] at h1
      rw [addDiffuse_inten _ _ _ h1]
    | false =>
      cases h1
      rfl

theorem addSurface_inten {db : Db} {x : Surface} {st st' : St} (h : addSurface db x st = .ok st') : st'.inten = st.inten := by
  unfold addSurface at h
  obtain ⟨s, h1, h2⟩ := Res.bind_ok h
  have e := (addSurfComps_get (a := .h) trivial _ _ _ _ h1).2.2.2
  split_ifs at h2
  · rw [addCharges_inten _ _ _ _ h2, e]
  · cases h2
    exact e

theorem addGases_get {db : Db} {a : Acct} (ha : Kept db a) (l : Amounts) (st st' : St) (h : addGases db l st = .ok st') :
    st'.get a = st.get a + (l.map fun x => match db.phase x.1 with | some e => amount db a e * x.2 | none => 0).sum
      ∧ st'.cb = st.cb ∧ st'.water = st.water ∧ st'.inten = st.inten := by
  induction l generalizing st with
  | nil =>
    simp only [addGases, Res.ok.injEq] at h
    subst h
    simp
  | cons x l ih =>
    rw [addGases] at h
    rw [List.map_cons, List.sum_cons]
    cases hp : db.phase x.1 with
    | none =>
      rw [hp] at h
      dsimp only at h
      obtain ⟨i1, i2, i3, i4⟩ := ih _ h
      rw [get_errors st (st.errors + 1)] at i1
      exact ⟨by rw [i1, zero_add], i2, i3, i4⟩
    | some e =>
      rw [hp] at h
      dsimp only at h
      obtain ⟨s, h1, h2⟩ := Res.bind_ok h
      obtain ⟨i1, i2, i3, i4⟩ := ih _ h2
      obtain ⟨j2, j3, j4⟩ := addElts_rest _ _ _ _ _ h1
      refine ⟨?_, i2.trans j2, i3.trans j3, i4.trans j4⟩
      rw [i1, addElts_get ha _ _ _ _ _ h1]
      dsimp only
      ring

theorem setInten_get (st : St) (j : Inten) (v : ℚ) (a : Acct) : (st.setInten j v).get a = st.get a := by cases a <;> rfl

theorem addGas_get {db : Db} {a : Acct} (ha : Kept db a) (g : Gas) (st st' : St) (h : addGas db g st = .ok st') :
    st'.get a = st.get a + inGas db a g ∧ st'.cb = st.cb ∧ st'.water = st.water
      ∧ ∀ j, j ≠ .patm → st'.inten j = st.inten j := by
  unfold addGas at h
  obtain ⟨s, h1, h2⟩ := Res.bind_ok h
  obtain ⟨i1, i2, i3, i4⟩ := addGases_get ha _ _ _ h1
  have key : ∀ p, (s.setInten .patm p).get a = st.get a + inGas db a g ∧ (s.setInten .patm p).cb = st.cb
      ∧ (s.setInten .patm p).water = st.water ∧ ∀ j, j ≠ .patm → (s.setInten .patm p).inten j = st.inten j := by
    intro p
    refine ⟨by rw [setInten_get]; exact i1, i2, i3, fun j hj => ?_⟩
    simp [St.setInten, hj, i4]
  cases hp : g.pressure with
  | none =>
    simp only [hp, Res.ok.injEq] at h2
    subst h2
    exact ⟨i1, i2, i3, fun j _ => by rw [i4]⟩
  | some p =>
    simp only [hp] at h2
    split_ifs at h2
    · simp only [Res.ok.injEq] at h2
      subst h2
      exact key p
    · simp only [Res.ok.injEq] at h2
      subst h2
      exact ⟨i1, i2, i3, fun j _ => by rw [i4]⟩

theorem zero_get (e : Nat) (a : Acct) : (zero e).get a = 0 := by cases a <;> rfl

theorem opt_get {α : Type} {x : Option α} {f : α → St → Res St} {a : Acct} {v : α → ℚ} {c : α → ℚ} {st st' : St}
    (hf : ∀ y, x = some y → ∀ s s', f y s = .ok s' → s'.get a = s.get a + v y ∧ s'.cb = s.cb + c y ∧ s'.water = s.water)
    (h : opt x f st = .ok st') : st'.get a = st.get a + ofOpt v x ∧ st'.cb = st.cb + ofOpt c x ∧ st'.water = st.water := by
  cases x with
  | none =>
    simp only [opt, Res.ok.injEq] at h
    subst h
    simp [ofOpt]
  | some y => exact hf y rfl _ _ h

/-- All parts but minerals and solid solutions. -/
theorem gather_get {db : Db} {a : Acct} (ha : Kept db a) (i : Input) (hp : Plain db i) (e : Nat) (st : St)
    (h : gather db i e = .ok st) : st.get a = brought db i a ∧ st.cb = charge i ∧ st.water = water i := by
  unfold gather at h
  obtain ⟨s1, h1, h⟩ := Res.bind_ok h
  obtain ⟨s2, h2, h⟩ := Res.bind_ok h
  obtain ⟨s3, h3, h⟩ := Res.bind_ok h
  obtain ⟨s4, h4, h⟩ := Res.bind_ok h
  obtain ⟨s5, h5, h⟩ := Res.bind_ok h
  obtain ⟨s6, h6, h⟩ := Res.bind_ok h
  obtain ⟨s7, h7, h8⟩ := Res.bind_ok h
  obtain ⟨a1, b1, c1⟩ := addWater_get ha i _ _ h1
  obtain ⟨a2, b2, c2⟩ := opt_get (a := a) (v := inReaction db a i.fraction) (c := fun _ => 0)
    (fun y _ s s' hs => by
      obtain ⟨k1, k2, k3, _⟩ := addReaction_get ha y _ _ _ hs
      exact ⟨k1, by rw [k2, add_zero], k3⟩) h2
  obtain ⟨a3, b3, c3⟩ := opt_get (a := a) (v := amount db a) (c := fun _ => 0)
    (fun y _ s s' hs => by
      obtain ⟨k2, k3, _⟩ := addElts_rest _ _ _ _ _ hs
      exact ⟨by rw [addElts_get ha _ _ _ _ _ hs, mul_one], by rw [k2, add_zero], k3⟩) h3
  obtain ⟨a4, b4, c4⟩ := opt_get (a := a) (v := fun x : Exchange => (x.comps.map fun c => amount db a c.totals).sum)
    (c := fun x : Exchange => if x.newDef then 0 else (x.comps.map fun c => c.charge).sum)
    (fun y _ s s' hs => by
      obtain ⟨k1, k2, k3, _⟩ := addExchange_get ha _ _ _ hs
      exact ⟨k1, k2, k3⟩) h4
  obtain ⟨a5, b5, c5⟩ := opt_get (a := a) (v := inSurface db a)
    (c := surfaceCharge)
    (fun y hy s s' hs => by
      obtain ⟨k1, k2, k3, _⟩ := addSurface_get ha _ _ _ (hp y hy) hs
      exact ⟨k1, k2, k3⟩) h5
  obtain ⟨a6, b6, c6⟩ := opt_get (a := a) (v := inGas db a) (c := fun _ => 0)
    (fun y _ s s' hs => by
      obtain ⟨k1, k2, k3, _⟩ := addGas_get ha _ _ _ hs
      exact ⟨k1, by rw [k2, add_zero], k3⟩) h6
  have hset : ∀ (j : Inten) (y : ℚ) (s s' : St), Res.ok (s.setInten j y) = Res.ok s' →
      s'.get a = s.get a + (fun _ : ℚ => (0 : ℚ)) y ∧ s'.cb = s.cb + (fun _ : ℚ => (0 : ℚ)) y ∧ s'.water = s.water := by
    intro j y s s' hs
    simp only [Res.ok.injEq] at hs
    subst hs
    exact ⟨by rw [setInten_get, add_zero], by simp [St.setInten], rfl⟩
  obtain ⟨a7, b7, c7⟩ := opt_get (a := a) (v := fun _ => 0) (c := fun _ => 0) (fun y _ s s' hs => hset _ y s s' hs) h7
  obtain ⟨a8, b8, c8⟩ := opt_get (a := a) (v := fun _ => 0) (c := fun _ => 0) (fun y _ s s' hs => hset _ y s s' hs) h8
  have z : ∀ {α : Type} (x : Option α), ofOpt (fun _ : α => (0 : ℚ)) x = 0 := by intro α x; cases x <;> rfl
  rw [z] at b2 b3 b6 b7 b8 a7 a8
  refine ⟨?_, ?_, ?_⟩
  · rw [a8, a7, a6, a5, a4, a3, a2, a1, zero_get]
    unfold brought
    ring
  · rw [b8, b7, b6, b5, b4, b3, b2, b1]
    unfold charge
    simp only [zero]
    ring
  · rw [c8, c7, c6, c5, c4, c3, c2, c1]
    unfold water
    simp only [zero]
    ring

end Verif.Assemble
