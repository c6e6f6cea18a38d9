import Verif.SelNav.Lemmas

/-! # C120, C121: choosing among selected outputs -/

namespace Verif.SelNav

open Verif.OMap Verif.Grid Verif.SelOut

/-- The events that leave definitions and tables alone. -/
def Quiet : Op → Prop
  | .setOn _ => True
  | .setCurrent _ => True
  | .setNth _ => True
  | _ => False

/-- `RunCells` with selected output on, after the definitions had been made, and then any number of
selections and settings: how a caller comes to read results. `dummy` gives the headings found by the
dummy run. -/
structure AfterRun (dummy : SMap Int Table) (s : St) : Prop where
  reach : ∃ s0 cells ops, s0.on = true ∧ keys dummy = s0.defs ∧
    (∀ cell ∈ cells, GoodCell (keys dummy) cell) ∧ (∀ op ∈ ops, Quiet op) ∧
    (Op.runCells dummy cells :: ops).foldlM step s0 = .ok s
  sorted : Sorted dummy
  nonneg : ∀ n ∈ keys dummy, 0 ≤ n

/-! ## Steps -/

theorem quiet_step {op : Op} (h : Quiet op) (s : St) :
    ∃ s', step s op = .ok s' ∧ s'.defs = s.defs ∧ s'.tables = s.tables := by
  cases op with
  | setOn b => exact ⟨_, rfl, rfl, rfl⟩
  | setCurrent n =>
    refine ⟨_, rfl, ?_⟩
    unfold setCurrent setCur
    split <;> exact ⟨rfl, rfl⟩
  | setNth n =>
    refine ⟨_, rfl, ?_⟩
    unfold setNth setCur
    split
    · split <;> exact ⟨rfl, rfl⟩
    · exact ⟨rfl, rfl⟩
  | define _ => cases h
  | loadDatabase => cases h
  | runCells _ _ => cases h

theorem quiet_run (ops : List Op) (h : ∀ op ∈ ops, Quiet op) : ∀ s s' : St,
    ops.foldlM step s = .ok s' → s'.defs = s.defs ∧ s'.tables = s.tables := by
  induction ops with
  | nil => intro s s' e; cases e; exact ⟨rfl, rfl⟩
  | cons op ops ih =>
    intro s s' e
    obtain ⟨s1, e1, d1, t1⟩ := quiet_step (h op (List.mem_cons_self ..)) s
    rw [List.foldlM_cons, e1, Out.ok_bind] at e
    obtain ⟨d2, t2⟩ := ih (fun op hop => h op (List.mem_cons_of_mem _ hop)) s1 s' e
    exact ⟨d2.trans d1, t2.trans t1⟩

theorem runCells_on {s : St} (hon : s.on = true) {dummy : SMap Int Table} (hn : ∀ n ∈ keys dummy, 0 ≤ n)
    {cells : List CellRun} {t : SMap Int Table} (ht : runThread dummy cells = .ok t) :
    runCells s dummy cells = .ok { s with cur := ((keys dummy).getLast?).getD s.cur, tables := t } := by
  unfold runCells
  rw [if_pos hon, ht, Out.ok_bind, setCur_fold _ _ hn]

theorem afterRun_tables {dummy : SMap Int Table} {s : St} (h : AfterRun dummy s) :
    s.defs = keys dummy ∧ keys s.tables = keys dummy ∧
    ∀ n tb, find dummy n = some tb → ∃ t a, find s.tables n = some t ∧ Rel t a ∧
      ∀ x ∈ tb.heads, x ∈ t.heads := by
  obtain ⟨s0, cells, ops, hon, hk, hg, hq, e⟩ := h.reach
  obtain ⟨c, hc, hspec⟩ := runThread_spec dummy h.sorted cells hg
  rw [List.foldlM_cons] at e
  have e1 : step s0 (.runCells dummy cells) = .ok _ := runCells_on hon h.nonneg hc
  rw [e1, Out.ok_bind] at e
  obtain ⟨d, t⟩ := quiet_run ops hq _ _ e
  dsimp only at d t
  refine ⟨by rw [d, hk], by rw [t]; exact runThread_keys h.sorted hc, ?_⟩
  intro n tb htb
  obtain ⟨t', rows, f1, f2, _⟩ := hspec n tb htb
  refine ⟨t', _, by rw [t]; exact f1, f2, ?_⟩
  intro x hx
  rw [f2.heads]
  exact heads_mono rows _ x (((dAbs_eq tb.heads).2.2 x).mpr hx)

theorem heading_eq {s : St} {t : Table} {a : Abs} (h0 : 0 ≤ s.cur) (ht : find s.tables s.cur = some t)
    (hr : Rel t a) (c : Int) : heading s c = .ok (if 0 ≤ c then t.heads[c.toNat]? else none) := by
  unfold heading
  rw [if_pos h0, ht]
  dsimp only
  rw [rel_get hr, Out.ok_bind, hr.heads]
  unfold Abs.get
  by_cases hc : c < 0
  · rw [if_neg (by omega : ¬ 0 ≤ c)]
    split
    · rfl
    · rfl
  · rw [if_pos (by omega : 0 ≤ c)]
    split
    · rename_i hx
      rcases hx with hx | hx | hx
      · omega
      · rw [hx]; simp [asHeading]
      · omega
    · cases hh : a.heads[c.toNat]? with
      | none => rfl
      | some x => rfl

theorem mapM_headings {s : St} {l : List Name} (n : Nat) (hn : n ≤ l.length)
    (h : ∀ c : Nat, heading s (c : Int) = .ok l[c]?) :
    (List.range n).mapM (fun i : Nat => do
      let h ← heading s (i : Int)
      Out.ok (h.getD [])) = .ok (l.take n) := by
  induction n with
  | zero => rfl
  | succ n ih =>
    rw [List.range_succ, List.mapM_append, ih (by omega)]
    have hlt : n < l.length := by omega
    simp only [List.mapM_cons, List.mapM_nil, h n, Out.ok_bind, Out.pure_eq,
      List.getElem?_eq_getElem hlt, Option.getD_some]
    rw [List.take_add_one, List.getElem?_eq_getElem hlt]
    rfl

/-! ## C120 -/

/-- C120. After `RunCells` with selected output on, and until definitions change:
`GetSelectedOutputCount` is the number of definitions, the user numbers come in increasing order,
`GetNthSelectedOutputUserNumber(i)` is the `i`-th of them, and sequence numbers out of range fail and
select nothing. `SetNthSelectedOutput(i)` selects that definition: `GetSelectedOutputColumnCount`,
`GetSelectedOutputHeadings` and `GetSelectedOutputHeading` then agree on its headings, which differ from
each other and include those of the definition. The full statement has no premise about `RunCells`
(`count_violated`, `count_off_violated`, `database_violated`). -/
theorem cycle_partial {dummy : SMap Int Table} {s : St} (h : AfterRun dummy s) :
    count s = s.defs.length ∧ s.defs.Pairwise (· < ·) ∧
    (∀ i : Int, i < 0 ∨ (count s : Int) ≤ i → getNth s i < 0 ∧ setNth s i = (.invalidArg, s)) ∧
    ∀ (i : Nat) (n : Int), s.defs[i]? = some n → getNth s i = n ∧
      ∃ s' tb l, setNth s i = (.ok, s') ∧ s'.cur = n ∧ s'.defs = s.defs ∧ s'.tables = s.tables ∧
        find dummy n = some tb ∧
        columnCount s' = (l.length : Int) ∧ headings s' = .ok (some l) ∧
        (∀ c : Int, heading s' c = .ok (if 0 ≤ c then l[c.toNat]? else none)) ∧
        l.Nodup ∧ ∀ x ∈ tb.heads, x ∈ l := by
  obtain ⟨hd, hk, ht⟩ := afterRun_tables h
  have hlen : count s = s.defs.length := by
    unfold count
    rw [hd, ← hk]
    simp [keys]
  have hnn : ∀ n ∈ s.defs, 0 ≤ n := by rw [hd]; exact h.nonneg
  refine ⟨hlen, ?_, ?_, ?_⟩
  · rw [hd]
    unfold keys
    rw [List.pairwise_map]
    exact h.sorted
  · intro i hi
    unfold getNth setNth
    by_cases h0 : 0 ≤ i
    · have hnone : s.defs[(i - 0).toNat]? = none := by
        rw [List.getElem?_eq_none_iff]; omega
      rw [if_pos h0, if_pos h0, nthFrom_spec i s.defs 0 h0, hnone]
      exact ⟨by decide, rfl⟩
    · rw [if_neg h0, if_neg h0]
      exact ⟨by decide, rfl⟩
  · intro i n hi
    have hn0 : 0 ≤ n := hnn n (List.mem_of_getElem? hi)
    have hnth : nthFrom 0 (i : Int) s.defs = n := by
      rw [nthFrom_spec _ _ 0 (by omega)]
      simp [hi]
    refine ⟨?_, ?_⟩
    · unfold getNth
      rw [if_pos (by omega), hnth, if_neg (by omega)]
    · have hmem : n ∈ keys dummy := by rw [← hd]; exact List.mem_of_getElem? hi
      obtain ⟨tb, htb⟩ := (mem_keys_iff _ _).mp hmem
      obtain ⟨t, a, hf, hr, hx⟩ := ht n tb htb
      have hheads : ∀ c : Int, heading { s with cur := n } c =
          .ok (if 0 ≤ c then t.heads[c.toNat]? else none) := heading_eq hn0 hf hr
      have hcol : columnCount { s with cur := n } = (t.heads.length : Int) := by
        unfold columnCount
        dsimp only
        rw [if_pos hn0, hf]
        rfl
      refine ⟨{ s with cur := n }, tb, t.heads, ?_, rfl, rfl, rfl, htb, hcol, ?_, hheads, ?_, hx⟩
      · unfold setNth setCur
        rw [if_pos (by omega), hnth, if_pos hn0, if_pos hn0]
        rfl
      · unfold headings
        rw [hcol, if_pos (by omega)]
        have := mapM_headings (s := { s with cur := n }) (l := t.heads) t.heads.length (le_refl _)
          (fun c => by rw [hheads, if_pos (by omega)]; rfl)
        rw [Int.toNat_natCast, this, Out.ok_bind, List.take_length]
      · rw [hr.heads]; exact hr.nodup

/-! ## C121 -/

/-- Events after which the selection may be another one. -/
def Selects (s : St) : Op → Prop
  | .setCurrent _ => True
  | .setNth _ => True
  | .loadDatabase => True
  | .runCells _ _ => s.on = true
  | _ => False

/-- C121. `SetCurrentSelectedOutputUserNumber` selects every number that is not negative and refuses
negative ones; the selection stays through every sequence of new definitions, settings and `RunCells`
without selected output. The full statement also asks it to stay through `RunCells` with selected
output (`run_selects`, `selection_violated`). -/
theorem selection_partial (s : St) :
    (∀ n, 0 ≤ n → setCurrent s n = (.ok, { s with cur := n })) ∧
    (∀ n, n < 0 → setCurrent s n = (.invalidArg, s)) ∧
    ∀ (ops : List Op) (s1 s' : St), ops.foldlM (fun s op => step s op) s1 = .ok s' →
      (∀ (pre : List Op) (op : Op) (post : List Op) (s2 : St), ops = pre ++ op :: post →
        pre.foldlM (fun s op => step s op) s1 = .ok s2 → ¬ Selects s2 op) → s'.cur = s1.cur := by
  refine ⟨?_, ?_, ?_⟩
  · intro n hn
    unfold setCurrent setCur
    rw [if_pos hn, if_pos hn]
    rfl
  · intro n hn
    unfold setCurrent
    rw [if_neg (by omega)]
    rfl
  · intro ops
    induction ops with
    | nil => intro s1 s' e _; cases e; rfl
    | cons op ops ih =>
      intro s1 s' e h
      have hop : ¬ Selects s1 op := h [] op ops s1 rfl rfl
      have hstep : ∃ s2, step s1 op = .ok s2 ∧ s2.cur = s1.cur := by
        cases op with
        | define ds => exact ⟨_, rfl, rfl⟩
        | setOn b => exact ⟨_, rfl, rfl⟩
        | loadDatabase => exact absurd trivial hop
        | setCurrent n => exact absurd trivial hop
        | setNth n => exact absurd trivial hop
        | runCells d c =>
          refine ⟨{ s1 with tables := [] }, ?_, rfl⟩
          have : ¬ s1.on = true := hop
          unfold step runCells
          dsimp only
          rw [if_neg this]
      obtain ⟨s2, e2, c2⟩ := hstep
      rw [List.foldlM_cons, e2, Out.ok_bind] at e
      rw [ih s2 s' e ?_, c2]
      intro pre op' post s3 hsplit hpre
      refine h (op :: pre) op' post s3 (by rw [hsplit]; rfl) ?_
      rw [List.foldlM_cons, e2, Out.ok_bind]
      exact hpre

/-- C121, the code. `RunCells` with selected output on selects the definition with the largest number,
whatever was selected before. -/
theorem run_selects {s s' : St} (hon : s.on = true) {dummy : SMap Int Table} {cells : List CellRun}
    (hk : keys dummy = s.defs) (hn : ∀ n ∈ keys dummy, 0 ≤ n) {m : Int} (hm : s.defs.getLast? = some m)
    (e : step s (.runCells dummy cells) = .ok s') : s'.cur = m := by
  unfold step at e
  dsimp only at e
  cases ht : runThread dummy cells with
  | ok t =>
    rw [runCells_on hon hn ht, hk, hm] at e
    cases e
    rfl
  | throw => unfold runCells at e; rw [if_pos hon, ht] at e; cases e
  | ub => unfold runCells at e; rw [if_pos hon, ht] at e; cases e

/-! ## Concrete cases -/

/-- A table with one row. -/
def oneRow (h : Name) (x : ℚ) : Table := ⟨1, [h], [[.dbl x]], [(h, 0)]⟩

def demoDummy : SMap Int Table := [(1, oneRow ['p'] 0), (5, oneRow ['q'] 0)]

def demoCells : List CellRun := [.dry, .wet [(1, oneRow ['p'] 2), (5, oneRow ['q'] 3)]]

/-- Definitions 1 and 5, number 1 selected, nothing run. -/
def demoSt : St := ⟨[1, 5], 1, true, []⟩

/-- Reading a result. -/
theorem of_ok {o : Out St} {P : St → Bool}
    (h : (match o with | .ok r => P r | _ => false) = true) : ∃ r, o = .ok r ∧ P r = true := by
  cases o with
  | ok r => exact ⟨r, rfl, h⟩
  | throw => cases h
  | ub => cases h

theorem good_row (h : Name) (hh : CString h) (x : ℚ) :
    ∃ ops, CStrings ops ∧ Made ops (oneRow h x) ∧ (oneRow h x).nRow =
      if (oneRow h x).colCount = 0 then 0 else 1 := by
  refine ⟨[.push h (.dbl x), .endRow], ?_, ?_, rfl⟩
  · intro h' v hm
    simp only [List.mem_cons, SelOut.Op.push.injEq, reduceCtorEq, List.not_mem_nil, or_false] at hm
    obtain ⟨rfl, rfl⟩ := hm
    exact ⟨hh, trivial⟩
  · rfl

theorem demo_good : ∀ cell ∈ demoCells, GoodCell (keys demoDummy) cell := by
  intro cell hc
  simp only [demoCells, List.mem_cons, List.not_mem_nil, or_false] at hc
  rcases hc with rfl | rfl
  · trivial
  · refine ⟨by simp [Sorted], rfl, ?_⟩
    intro k tb hf
    have := mem_of_find hf
    simp only [List.mem_cons, Prod.mk.injEq, List.not_mem_nil, or_false] at this
    rcases this with ⟨_, rfl⟩ | ⟨_, rfl⟩
    · exact good_row _ (by unfold CString; decide) _
    · exact good_row _ (by unfold CString; decide) _

/-- The premise of `cycle_partial` is met: two definitions, a dry and a wet cell, then a selection. -/
example : ∃ s, AfterRun demoDummy s ∧ s.cur = 1 := by
  obtain ⟨c, hc, _⟩ := runThread_spec demoDummy (by simp [demoDummy, Sorted]) demoCells demo_good
  have e1 : step demoSt (.runCells demoDummy demoCells) = .ok _ :=
    runCells_on (s := demoSt) rfl (by decide) hc
  refine ⟨{ demoSt with cur := 1, tables := c }, ⟨⟨demoSt, demoCells, [.setNth 0], rfl, rfl, demo_good, ?_, ?_⟩, by simp [demoDummy, Sorted],
    by decide⟩, ?_⟩
  · intro op hop
    simp only [List.mem_cons, List.not_mem_nil, or_false] at hop
    subst hop
    trivial
  · rw [List.foldlM_cons, e1, Out.ok_bind]
    rfl
  · rfl

/-- C120, the code. Before `RunCells` there is a definition with sequence number 0, and the number of
definitions is 0. -/
theorem count_violated : getNth demoSt 0 = 1 ∧ count demoSt = 0 := by decide

/-- C120, the code. After `RunCells` with selected output switched off, the number of definitions is 0
again. -/
theorem count_off_violated :
    ∃ s, [Op.runCells demoDummy demoCells, .setOn false, .runCells demoDummy demoCells].foldlM step demoSt = .ok s ∧
      decide (count s = 0 ∧ s.defs.length = 2) = true :=
  of_ok (by decide +kernel)

/-- C120, the code. After `LoadDatabase` there is no definition, and the number of definitions is still
2. -/
theorem database_violated :
    ∃ s, [Op.runCells demoDummy demoCells, .loadDatabase].foldlM step demoSt = .ok s ∧
      decide (count s = 2 ∧ s.defs = [] ∧ getNth s 0 = -7) = true :=
  of_ok (by decide +kernel)

/-- C121, the code. The caller selects definition 1 and runs the cells: afterwards definition 5 is
selected and its headings are returned. -/
theorem selection_violated :
    ∃ s, [Op.setCurrent 1, .runCells demoDummy demoCells].foldlM step demoSt = .ok s ∧
      decide (s.cur = 5 ∧ heading s 0 = .ok (some ['q'])) = true :=
  of_ok (by decide +kernel)

/-- C121, the code. A number without a definition is selected without an error. -/
theorem undefined_selected_violated :
    (setCurrent demoSt 7).1 = .ok ∧ (setCurrent demoSt 7).2.cur = 7 ∧ 7 ∉ demoSt.defs ∧
      columnCount (setCurrent demoSt 7).2 = -3 := by decide

/-- The premises of `selection_partial` (third part) are met by a sequence with `RunCells`. -/
example : ∃ s, [Op.setOn false, .define [1, 2, 3], .runCells [] []].foldlM (fun s op => step s op) demoSt =
    .ok s ∧ decide (s.cur = 1 ∧ s.defs = [1, 2, 3]) = true := of_ok (by decide +kernel)

end Verif.SelNav
