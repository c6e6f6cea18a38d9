import Verif.Print.Lemmas

/-!
# Properties of the text of the output file
-/

namespace Verif.Print

open Verif.Mapping Verif.Transfer Verif.Grid Verif.Ranges

/-- C194, in part. When no cell ends the run (error handler mode 3, or no active cell whose
calculation counts errors), the output file gets exactly one section per reaction cell to be
printed, in order of the reaction cells, however these are dealt out to the workers, and nothing
when printing is off. What is missing: all grid cells of a reaction cell must agree on the mask,
see `mask_of_first_only`. -/
theorem printed_partial {χ : Type} (E : Engine χ) (c : Cfg) (g : List Int) (bad : Nat → Bool)
    (text : Nat → String) (fate : Nat → Fate) (xs : List χ)
    (hc : Consistent g c.map) (hm : c.mask.length = g.length) (hs : c.sat.length = g.length)
    (hx : xs.length = c.map.nthreads)
    (hy : Yields E bad text) (hf : ∀ n, FateOf g c.sat n (bad n) (text n) (fate n))
    (hg : 3 ≤ c.mode ∨ ∀ n < c.map.count, Wet g c.sat n → bad n = false)
    (ha : Agree g c.mask) :
    ∃ xs', runCells E c xs = .ok (xs',
      if c.on then fileOf g c.mask c.map.count (c.num (c.time * c.conv)) fate else "", false) := by
  have hcells := (SelOut.contig_cells _ _ _ hc.ranges.2).2
  have hcells' : c.map.ranges.flatMap rangeCells =
      (List.range c.map.count).map (fun n : Nat => (n : Int)) := by
    rw [hcells]
    simp
  obtain ⟨xs', h⟩ := workers_adds (E := E) (c := c) (fun i => adds g c fate i.toNat)
    c.map.ranges (by
      intro i hi
      rw [hcells', List.mem_map] at hi
      obtain ⟨n, hn, rfl⟩ := hi
      have hn := List.mem_range.mp hn
      exact cell_adds hc hm hs hy ha hf hn (hg.imp id (fun h => h n hn))) xs ""
    (by rw [hx]; exact hc.ranges.1)
  refine ⟨xs', ?_⟩
  unfold runCells
  rw [h, hcells', List.map_map, String.empty_append]
  cases hon : c.on
  · simp
  · rw [if_pos rfl, if_pos rfl]
    unfold fileOf
    congr 4
    apply List.map_congr_left
    intro n _
    simp [adds, hon]

/-- C194, in part (as for `printed_partial`). The text does not depend on the number
of workers nor on how the cells are dealt out. -/
theorem printed_any_workers_partial {χ : Type} (E : Engine χ) (c d : Cfg) (g : List Int)
    (bad : Nat → Bool) (text : Nat → String) (fate : Nat → Fate) (xs ys : List χ)
    (hd : d = { c with map := { c.map with nthreads := d.map.nthreads, ranges := d.map.ranges } })
    (hc : Consistent g c.map) (hr : IsPartition d.map.count d.map.nthreads d.map.ranges)
    (hm : c.mask.length = g.length) (hs : c.sat.length = g.length)
    (hx : xs.length = c.map.nthreads) (hz : ys.length = d.map.nthreads)
    (hy : Yields E bad text) (hf : ∀ n, FateOf g c.sat n (bad n) (text n) (fate n))
    (hg : 3 ≤ c.mode ∨ ∀ n < c.map.count, Wet g c.sat n → bad n = false)
    (ha : Agree g c.mask) :
    ∃ xs' ys' t, runCells E c xs = .ok (xs', t, false) ∧ runCells E d ys = .ok (ys', t, false) := by
  obtain ⟨xs', h1⟩ := printed_partial E c g bad text fate xs hc hm hs hx hy hf hg ha
  generalize hn : d.map.nthreads = nt at *
  generalize hrs : d.map.ranges = rs at *
  subst hd
  have hcd : Consistent g { c.map with nthreads := nt, ranges := rs } :=
    { count_max := hc.count_max, back_len := hc.back_len, back := hc.back, fwd_len := hc.fwd_len,
      fwd := hc.fwd, fwd_inactive := hc.fwd_inactive, fwd_other := hc.fwd_other, ranges := hr }
  obtain ⟨ys', h2⟩ := printed_partial E
    { c with map := { c.map with nthreads := nt, ranges := rs } } g bad text fate ys hcd hm hs
    hz hy hf hg ha
  exact ⟨xs', ys', _, h1, h2⟩

/-- The reaction cells of a worker. -/
def own (r : Int × Int) : List Nat := (rangeCells r).map Int.toNat

/-- C195, in part. When the calculation of a cell ends the run (error handler mode below 3), the
call reports it, and the file holds, worker after worker, the sections of the cells before the
failing one and the printout of the failing one, and all sections of the workers without a failing
cell. `stop` tells which cells fail. What is missing: a failing cell must be one to be printed,
see `stray_line`; the printout of the failing cell carries no heading. -/
theorem stopped_partial {χ : Type} (E : Engine χ) (c : Cfg) (g : List Int) (bad : Nat → Bool)
    (text : Nat → String) (fate : Nat → Fate) (stop : Nat → Bool) (xs : List χ)
    (hc : Consistent g c.map) (hm : c.mask.length = g.length) (hs : c.sat.length = g.length)
    (hx : xs.length = c.map.nthreads)
    (hy : Yields E bad text) (hf : ∀ n, FateOf g c.sat n (bad n) (text n) (fate n))
    (hst : ∀ n, stop n = true ↔ Wet g c.sat n ∧ bad n = true)
    (hmode : c.mode < 3) (hon : c.on = true) (ha : Agree g c.mask)
    (hp : ∀ n k m, stop n = true → k ∈ cellsOf g n → c.mask[k]? = some m → m ≠ 0) :
    ∃ xs' failed, runCells E c xs = .ok (xs', cat (c.map.ranges.map (fun r =>
        reachedOf stop (shownOf g c.mask (c.num (c.time * c.conv)) fate) text (own r))), failed) ∧
      (failed = true ↔ ∃ n < c.map.count, stop n = true) := by
  have hcells := (SelOut.contig_cells _ _ _ hc.ranges.2).2
  have hcells' : c.map.ranges.flatMap rangeCells =
      (List.range c.map.count).map (fun n : Nat => (n : Int)) := by
    rw [hcells]
    simp
  have hmem : ∀ r ∈ c.map.ranges, ∀ i ∈ rangeCells r, ∃ n : Nat, n < c.map.count ∧ i = n := by
    intro r hr i hi
    have : i ∈ c.map.ranges.flatMap rangeCells := List.mem_flatMap.mpr ⟨r, hr, hi⟩
    rw [hcells', List.mem_map] at this
    obtain ⟨n, hn, rfl⟩ := this
    exact ⟨n, List.mem_range.mp hn, rfl⟩
  have hadd : ∀ n, n < c.map.count → stop n = false →
      Adds E c (n : Int) (shownOf g c.mask (c.num (c.time * c.conv)) fate n) false := by
    intro n hn h0
    have h := cell_adds (E := E) hc hm hs hy ha hf hn (Or.inr (by
      intro hw
      by_contra hb
      have := (hst n).mpr ⟨hw, by simpa using hb⟩
      rw [h0] at this
      cases this))
    simpa [adds, hon] using h
  -- one worker
  have hone : ∀ l : List Nat, (∀ n ∈ l, n < c.map.count) → ∀ x out, ∃ x',
      cellLoop E c (l.map (fun n : Nat => (n : Int))) x out = .ok (x', out ++
        reachedOf stop (shownOf g c.mask (c.num (c.time * c.conv)) fate) text l, l.any stop) := by
    intro l
    induction l with
    | nil => intro _ x out; exact ⟨x, by simp [cellLoop, reachedOf, cat_nil]⟩
    | cons n l ih =>
      intro hl x out
      have hn := hl n (by simp)
      cases h0 : stop n
      · obtain ⟨x1, h1⟩ := hadd n hn h0 x out
        obtain ⟨x2, h2⟩ := ih (fun k hk => hl k (by simp [hk])) x1
          (out ++ shownOf g c.mask (c.num (c.time * c.conv)) fate n)
        refine ⟨x2, ?_⟩
        simp only [List.map_cons, cellLoop, h1, Out.ok_bind, Bool.false_eq_true, if_false, h2,
          List.any_cons, h0, Bool.false_or, reachedOf, List.takeWhile_cons, Bool.not_false, if_true,
          List.find?_cons, cat_cons, String.append_assoc]
      · obtain ⟨x1, h1⟩ := cell_stops hc hm hs hy hn hmode ((hst n).mp h0).1 ((hst n).mp h0).2 hon
          (fun k m => hp n k m h0) x out
        refine ⟨x1, ?_⟩
        simp only [List.map_cons, cellLoop, h1, Out.ok_bind, if_true, List.any_cons, h0,
          Bool.true_or, reachedOf, List.takeWhile_cons, Bool.not_true, Bool.false_eq_true, if_false,
          List.map_nil, cat_nil, List.find?_cons, String.empty_append, Out.pure_eq]
  have hown : ∀ r ∈ c.map.ranges, (own r).map (fun n : Nat => (n : Int)) = rangeCells r := by
    intro r hr
    unfold own
    rw [List.map_map]
    conv_rhs => rw [← List.map_id (rangeCells r)]
    apply List.map_congr_left
    intro i hi
    obtain ⟨n, _, rfl⟩ := hmem r hr i hi
    simp
  have hlt : ∀ r ∈ c.map.ranges, ∀ n ∈ own r, n < c.map.count := by
    intro r hr n hn
    obtain ⟨i, hi, rfl⟩ := List.mem_map.mp hn
    obtain ⟨n, hlt, rfl⟩ := hmem r hr i hi
    simpa using hlt
  obtain ⟨xs', h⟩ := workers_texts (E := E) (c := c) (fun r =>
      reachedOf stop (shownOf g c.mask (c.num (c.time * c.conv)) fate) text (own r))
    (fun r => (own r).any stop) c.map.ranges (by
      intro r hr x
      obtain ⟨x', h'⟩ := hone (own r) (hlt r hr) x ""
      rw [hown r hr, String.empty_append] at h'
      exact ⟨x', h'⟩) xs "" (by rw [hx]; exact hc.ranges.1)
  refine ⟨xs', c.map.ranges.any (fun r => (own r).any stop), ?_, ?_⟩
  · unfold runCells
    rw [h, hon, if_pos rfl, String.empty_append]
  · simp only [List.any_eq_true]
    constructor
    · rintro ⟨r, hr, n, hn, h0⟩
      exact ⟨n, hlt r hr n hn, h0⟩
    · rintro ⟨n, hn, h0⟩
      have : (n : Int) ∈ c.map.ranges.flatMap rangeCells := by
        rw [hcells']
        exact List.mem_map.mpr ⟨n, List.mem_range.mpr hn, rfl⟩
      obtain ⟨r, hr, hi⟩ := List.mem_flatMap.mp this
      exact ⟨r, hr, n, List.mem_map.mpr ⟨n, hi, by simp⟩, h0⟩

namespace Demo

/-- Three grid cells, the last two standing for reaction cell 1. -/
def g : List Int := [0, 1, 1]

def map : MapState :=
  { nxyz := 3, nthreads := 2, count := 2, forward := [0, 1, -1], backward := [[0], [1, 2]],
    ranges := [(0, 0), (1, 1)] }

theorem map_ok : Consistent g map := by
  refine (createMapping_consistent
    { nxyz := 3, nthreads := 2, count := 3, forward := [], backward := [], ranges := [] }
    map g ?_).1
  decide

/-- An instance that fails on the cells of `bad`. -/
def E (bad : Nat → Bool) : Engine Unit :=
  { run := fun i on _ => ((), bad i.toNat, if on then "text\n" else "") }

theorem E_ok (bad : Nat → Bool) : Yields (E bad) bad (fun _ => "text\n") :=
  ⟨fun _ _ => by simp [E], fun _ _ => by simp [E]⟩

def cfg (mode : Int) (mask : List Int) : Cfg :=
  { mode := mode, time := 1, conv := 2, on := true, mask := mask, sat := [1, 1, 1], map := map,
    num := fun q => toString q.num }

end Demo

/-- The mask of a grid cell that is not the first of its reaction cell has no effect: grid cell 2
has mask 1, printing is on, and nothing is written. -/
theorem mask_of_first_only :
    Demo.g[2]? = some 1 ∧ runCells (Demo.E fun _ => false) (Demo.cfg 0 [0, 0, 1]) [(), ()] =
      .ok ([(), ()], "", false) := by
  decide +kernel

/-- With the mask at the first grid cell of reaction cell 1 the section is written. -/
theorem printed_demo :
    runCells (Demo.E fun _ => false) (Demo.cfg 0 [0, 1, 1]) [(), ()] =
      .ok ([(), ()], "Time:                   2\nChemistry cell:         1\nGrid cell(s) (0-based): 1 2 \ntext\n", false) := by
  decide +kernel

/-- The calculation of a cell that is not to be printed fails: a message of the engine about its
own switch is written to the output file. -/
theorem stray_line :
    runCells (Demo.E fun n => n == 0) (Demo.cfg 0 [0, 1, 1]) [(), ()] =
      .ok ([(), ()], "GetOutputString: OutputStringOn not set.\nTime:                   2\nChemistry cell:         1\nGrid cell(s) (0-based): 1 2 \ntext\n", true) := by
  decide +kernel

theorem demo_wet (mode : Int) (mask : List Int) (n : Nat) (hn : n < 2) :
    Wet Demo.g (Demo.cfg mode mask).sat n := by
  have : n = 0 ∨ n = 1 := by omega
  rcases this with rfl | rfl
  · exact ⟨0, 1, by decide, rfl, by decide +kernel⟩
  · exact ⟨1, 1, by decide, rfl, by decide +kernel⟩

open Classical in
/-- The hypotheses of `printed_partial` can be met, with a cell that fails. -/
theorem printed_partial_applies : ∃ (E : Engine Unit) (c : Cfg) (g : List Int) (bad : Nat → Bool)
    (text : Nat → String) (fate : Nat → Fate) (xs : List Unit),
    Consistent g c.map ∧ c.mask.length = g.length ∧ c.sat.length = g.length ∧
    xs.length = c.map.nthreads ∧ Yields E bad text ∧
    (∀ n, FateOf g c.sat n (bad n) (text n) (fate n)) ∧ 3 ≤ c.mode ∧ Agree g c.mask ∧
    c.on = true ∧ bad 0 = true ∧ bad 1 = false ∧ Wet g c.sat 0 ∧ Wet g c.sat 1 := by
  refine ⟨Demo.E fun n => n == 0, Demo.cfg 3 [1, 1, 1], Demo.g, fun n => n == 0,
    fun _ => "text\n", fun n => if Wet Demo.g (Demo.cfg 3 [1, 1, 1]).sat n then
      (if n == 0 then .failed else .done "text\n") else .dry, [(), ()], Demo.map_ok, rfl, rfl, rfl,
    Demo.E_ok _, ?_, by decide, ?_, rfl, rfl, rfl, demo_wet _ _ 0 (by omega),
    demo_wet _ _ 1 (by omega)⟩
  · intro n
    refine ⟨fun h => by simp [h], fun h hb => ?_, fun h hb => ?_⟩
    · simp only [h, if_true, hb]
    · simp only [h, if_true, hb, Bool.false_eq_true, if_false]
  · intro k k' n m m' _ _ h1 h2
    have one : ∀ (j : Nat) (a : Int), (Demo.cfg 3 [1, 1, 1]).mask[j]? = some a → a = 1 := by
      intro j a h
      have : a ∈ [(1 : Int), 1, 1] := List.mem_of_getElem? h
      simpa using this
    rw [one k m h1, one k' m' h2]

open Classical in
/-- The hypotheses of `stopped_partial` can be met, with a failing cell. -/
theorem stopped_partial_applies : ∃ (E : Engine Unit) (c : Cfg) (g : List Int) (bad : Nat → Bool)
    (text : Nat → String) (fate : Nat → Fate) (stop : Nat → Bool) (xs : List Unit),
    Consistent g c.map ∧ c.mask.length = g.length ∧ c.sat.length = g.length ∧
    xs.length = c.map.nthreads ∧ Yields E bad text ∧
    (∀ n, FateOf g c.sat n (bad n) (text n) (fate n)) ∧
    (∀ n, stop n = true ↔ Wet g c.sat n ∧ bad n = true) ∧ c.mode < 3 ∧ c.on = true ∧
    Agree g c.mask ∧
    (∀ n k m, stop n = true → k ∈ cellsOf g n → c.mask[k]? = some m → m ≠ 0) ∧
    stop 0 = true ∧ stop 1 = false := by
  have one : ∀ (j : Nat) (a : Int), (Demo.cfg 0 [1, 1, 1]).mask[j]? = some a → a = 1 := by
    intro j a h
    have : a ∈ [(1 : Int), 1, 1] := List.mem_of_getElem? h
    simpa using this
  refine ⟨Demo.E fun n => n == 0, Demo.cfg 0 [1, 1, 1], Demo.g, fun n => n == 0,
    fun _ => "text\n", fun n => if Wet Demo.g (Demo.cfg 0 [1, 1, 1]).sat n then
      (if n == 0 then .failed else .done "text\n") else .dry, fun n => n == 0, [(), ()],
    Demo.map_ok, rfl, rfl, rfl, Demo.E_ok _, ?_, ?_, by decide, rfl, ?_, ?_, rfl, rfl⟩
  · intro n
    refine ⟨fun h => by simp [h], fun h hb => ?_, fun h hb => ?_⟩
    · simp only [h, if_true, hb]
    · simp only [h, if_true, hb, Bool.false_eq_true, if_false]
  · intro n
    constructor
    · intro h
      have h0 : n = 0 := by simpa using h
      subst h0
      exact ⟨demo_wet _ _ 0 (by omega), rfl⟩
    · exact fun h => h.2
  · intro k k' n m m' _ _ h1 h2
    rw [one k m h1, one k' m' h2]
  · intro n k m _ _ h
    rw [one k m h]
    decide

end Verif.Print
