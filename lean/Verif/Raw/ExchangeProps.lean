import Verif.Raw.ExchangeLemmas

/-!
# Restart of an exchange assemblage from a dump file
-/

namespace Verif.Raw

open Verif.OMap Verif.NameDouble

/-- An exchange assemblage whose text can be read back. The names on the component totals are
not taken for options (`La` is the option `-la`), no component is named like an entry of the
totals of an earlier component, the workspace totals are empty. -/
structure Exchange.Loadable (x : Exchange) : Prop where
  lists : ∀ c ∈ x.comps, ListOk exchCompOpts c.totals
  names : x.comps.Pairwise (fun c d => d.formula ∉ keys c.totals)
  distinct : (x.comps.map ExchComp.formula).Nodup
  work : x.totals = []

theorem sortComps_perm (cs : List ExchComp) (h : (cs.map ExchComp.formula).Nodup) :
    (sortComps cs).Perm cs ∧ (sortComps cs).Pairwise (fun a b => a.formula < b.formula) := by
  obtain ⟨h1, h2⟩ := foldl_insert_perm ExchComp.formula cs [] h (by simp [keys])
    (by simp [Sorted])
  have h3 : (sortComps cs).Perm cs := by
    have := h1.map Prod.snd
    simpa [sortComps, List.map_map, Function.comp_def] using this
  refine ⟨h3, ?_⟩
  have hk : ∀ p ∈ cs.foldl (fun m c => OMap.insert m (ExchComp.formula c) c) [],
      p.1 = p.2.formula := by
    intro p hp
    have := h1.mem_iff.mp hp
    simp only [List.nil_append, List.mem_map] at this
    obtain ⟨c, _, rfl⟩ := this
    rfl
  unfold sortComps
  rw [List.pairwise_map]
  refine (List.Pairwise.and_mem.mp h2).imp ?_
  intro a b ⟨ha, hb, hab⟩
  rw [← hk a ha, ← hk b hb]; exact hab

/-- C122. For every exchange assemblage that meets the conditions, and whatever follows in the
file, reading the dumped text reports no error, ends at the following keyword and gives the same
number, description, activity-coefficient switch and solution number; the components are those
dumped, every double rounded as printed, in the order of their formulas. What is missing for the
full claim is shown by the `_violated` theorems: the conditions, `new_def` and
`solution_equilibria` (written as 0) and the range end. -/
theorem exchange_restart_partial (rnd : ℚ → ℚ) (x : Exchange) (hx : x.Loadable)
    (ls : List Line) (he : BlockEnd ls) :
    ∃ y, readExchange (dumpExchange rnd x ++ ls) = (y, 0, ls) ∧
      y.head.nUser = x.head.nUser ∧ y.head.nUserEnd = x.head.nUser ∧ y.head.desc = x.head.desc ∧
      y.pitzer = x.pitzer ∧ y.nSolution = x.nSolution ∧ y.totals = [] ∧
      y.newDef = false ∧ y.solEq = false ∧
      y.comps.Perm (x.comps.map (fun c =>
        ⟨c.formula, c.totals.map (fun p => (p.1, rnd p.2)), rnd c.la, rnd c.chargeBalance,
          c.phaseName, rnd c.phaseProportion, c.rateName, rnd c.formulaZ⟩)) ∧
      y.comps.Pairwise (fun a b => a.formula < b.formula) := by
  have hn : ((x.comps.map (ExchComp.rounded rnd)).map ExchComp.formula).Nodup := by
    simpa [List.map_map, Function.comp_def, ExchComp.rounded] using hx.distinct
  obtain ⟨p1, p2⟩ := sortComps_perm _ hn
  refine ⟨_, readExchange_dump rnd x ls hx.lists hx.names hx.work he, rfl, rfl, rfl, rfl, rfl,
    hx.work, rfl, rfl, p1, p2⟩

theorem sortComps_sorted (cs : List ExchComp)
    (h : cs.Pairwise (fun a b => a.formula < b.formula)) : sortComps cs = cs := by
  have hs : Sorted (cs.map (fun c => (c.formula, c))) := by
    unfold Sorted; rw [List.pairwise_map]; exact h
  have := foldl_insert_sorted (f := id) _ hs
  rw [List.foldl_map] at this
  unfold sortComps
  simp only [id] at this
  rw [this]
  simp [List.map_map, Function.comp_def]

/-- C122. Dumping, reading and dumping again gives the same text, if printing a value that was
read gives the text it was read from (14 digits are fewer than the 15 that a double keeps) and
the components are in the order of their formulas, as `read_raw` leaves them. -/
theorem exchange_redump (rnd : ℚ → ℚ) (hr : ∀ q, rnd (rnd q) = rnd q) (x y : Exchange)
    (hx : x.Loadable) (ho : x.comps.Pairwise (fun a b => a.formula < b.formula))
    (ls : List Line) (he : BlockEnd ls)
    (h : readExchange (dumpExchange rnd x ++ ls) = (y, 0, ls)) :
    dumpExchange rnd y = dumpExchange rnd x := by
  rw [readExchange_dump rnd x ls hx.lists hx.names hx.work he] at h
  have hy := (Prod.mk.inj h).1
  subst hy
  have ho' : (x.comps.map (ExchComp.rounded rnd)).Pairwise (fun a b => a.formula < b.formula) := by
    rw [List.pairwise_map]; exact ho
  have hd : ∀ nd : ND, dumpND rnd (rounded rnd nd) = dumpND rnd nd := by
    intro nd; simp [dumpND, rounded, List.map_map, Function.comp_def, hr]
  have hc : ∀ c : ExchComp, dumpExchComp rnd (c.rounded rnd) = dumpExchComp rnd c := by
    intro c; simp [dumpExchComp, ExchComp.rounded, hd, hr]
  simp only [dumpExchange, sortComps_sorted _ ho', List.flatMap_map, hc, headLine]
  rfl

/-- The hypotheses are met by an assemblage with two components. -/
def exampleExchange : Exchange :=
  ⟨⟨5, 7, [.word "clay".toList]⟩, true,
   [⟨"X".toList, [("Ca".toList, 1/3), ("X".toList, 2)], -1/7, 0, [], 0, [], 0⟩,
    ⟨"Y".toList, [("Na".toList, 4), ("Y".toList, 1)], 2, 1/9, "Calcite".toList, 3, [], -1⟩],
   true, true, 5, []⟩

theorem exampleExchange_loadable : exampleExchange.Loadable :=
  ⟨by decide +kernel, by decide +kernel, by decide +kernel, rfl⟩

example : (readExchange (dumpExchange (fun q => q) exampleExchange ++ [[.word "END".toList]])).1.comps
    = exampleExchange.comps := by decide +kernel

/-- An assemblage with lanthanum on the exchanger. -/
def laExchange : Exchange :=
  ⟨⟨1, 1, []⟩, true,
   [⟨"X".toList, [("La".toList, 1/2), ("Na".toList, 3), ("X".toList, 5)], -2, 0, [], 0, [], 0⟩],
   false, false, -999, []⟩

/-- C122 is violated: the line `La 0.5` of the totals is taken for the option `-la`, so the
lanthanum on the exchanger is lost. No error is reported. -/
theorem exchange_lanthanum_violated :
    ∃ y, readExchange (dumpExchange (fun q => q) laExchange) = (y, 0, []) ∧
      y.comps.map (fun c => c.totals) = [[("Na".toList, 3), ("X".toList, 5)]] ∧
      laExchange.comps.map (fun c => find c.totals "La".toList) = [some (1/2)] :=
  ⟨⟨⟨1, 1, []⟩, true,
    [⟨"X".toList, [("Na".toList, 3), ("X".toList, 5)], -2, 0, [], 0, [], 0⟩],
    false, false, -999, []⟩, by decide +kernel, by decide +kernel, by decide +kernel⟩

/-- An assemblage with the components `CaX2` and `X`. -/
def twoExchange : Exchange :=
  ⟨⟨1, 1, []⟩, true,
   [⟨"CaX2".toList, [("Ca".toList, 1), ("X".toList, 2)], 0, 0, [], 0, [], 0⟩,
    ⟨"X".toList, [("Na".toList, 7), ("X".toList, 7)], 0, 0, [], 0, [], 0⟩],
   false, false, -999, []⟩

/-- C122 is violated: a component whose formula occurs in the totals of an earlier component is
dropped. No error is reported. -/
theorem exchange_component_violated :
    ∃ y, readExchange (dumpExchange (fun q => q) twoExchange) = (y, 0, []) ∧
      y.comps.map (fun c => c.formula) = ["CaX2".toList] ∧
      twoExchange.comps.map (fun c => c.formula) = ["CaX2".toList, "X".toList] :=
  ⟨⟨⟨1, 1, []⟩, true,
    [⟨"CaX2".toList, [("Ca".toList, 1), ("X".toList, 2)], 0, 0, [], 0, [], 0⟩],
    false, false, -999, []⟩, by decide +kernel, by decide +kernel, by decide +kernel⟩

/-- C122 is violated for every assemblage with workspace totals (first name not an option): the
reader reports an error at the first line of `-totals` and leaves the rest of the block unread. -/
theorem exchange_totals_violated (rnd : ℚ → ℚ) (x : Exchange)
    (h1 : ∀ c ∈ x.comps, ListOk exchCompOpts c.totals)
    (h2 : x.comps.Pairwise (fun c d => d.formula ∉ keys c.totals))
    (n : Name) (v : ℚ) (nd : ND) (ht : x.totals = (n, v) :: nd) (hp : Plain exchangeOpts n)
    (ls : List Line) :
    (readExchange (dumpExchange rnd x ++ ls)).2 =
      (1, dumpND rnd x.totals ++ ls) := by
  rw [dumpExchange_eq, List.cons_append, List.append_assoc]
  unfold readExchange
  dsimp only
  rw [readHead_headLine, feed_goes (goes_exchBody rnd x _ h1 h2), ht]
  unfold exchangeStep
  rw [dumpND, List.map_cons, List.cons_append,
    feed_stop (s' := ((⟨⟨⟨x.head.nUser, x.head.nUser, x.head.desc⟩, x.pitzer,
      x.comps.map (ExchComp.rounded rnd), false, false, x.nSolution, []⟩, none, [], 0⟩ :
      RS Exchange).error, none))]
  · rfl
  · simp only [nestStep, outerStep, getOption_plain _ hp]

/-- The hypotheses of `exchange_totals_violated` are met. -/
example : (readExchange (dumpExchange (fun q => q)
    { exampleExchange with totals := [("Ca".toList, 1)] })).2
      = (1, [[.word "Ca".toList, .num 1]]) :=
  (exchange_totals_violated (fun q => q) { exampleExchange with totals := [("Ca".toList, 1)] }
    exampleExchange_loadable.lists exampleExchange_loadable.names "Ca".toList 1 [] rfl
    (by decide +kernel) []) ▸ by simp [dumpND]

end Verif.Raw
