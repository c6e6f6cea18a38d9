import Verif.Reuse.Fits
import Mathlib.Data.List.Perm.Basic

/-!
# Lemmas: putting new amounts into kept unknowns
-/

namespace Verif.Reuse

open Spec

/-- The unknown belongs to neither a gas nor a solid solution. -/
def Unk.plain : Unk → Bool
  | .gas _ => false
  | .gasEach _ _ => false
  | .ss _ _ _ _ => false
  | _ => true

theorem fillGas_skip (least : ℚ) (l : List (Name × ℚ)) (a b : List Unk) (ha : ∀ u ∈ a, u.plain = true) {r : List Unk}
    (h : fillGas least l b = .ok r) : fillGas least l (a ++ b) = .ok (a ++ r) := by
  cases l with
  | nil =>
    rw [fillGas] at h ⊢
    cases h
    rfl
  | cons y l =>
    induction a with
    | nil => exact h
    | cons u a ih =>
      have hu := ha u List.mem_cons_self
      have ih := ih fun u hu => ha u (List.mem_cons_of_mem _ hu)
      cases u with
      | gas v => cases hu
      | gasEach n v => cases hu
      | ss p o q v => cases hu
      | _ => rw [List.cons_append, fillGas, ih]; · rfl
             · intro _ _ e; cases e

theorem fillGas_spec (least : ℚ) (l : List (Name × ℚ)) (g s : List Unk)
    (h : g.map wipe = (l.map fun x => Unk.gasEach x.1 (atLeast least x.2)).map wipe) :
    fillGas least l (g ++ s) = .ok ((l.map fun x => Unk.gasEach x.1 (atLeast least x.2)) ++ s) := by
  induction l generalizing g with
  | nil =>
    cases g with
    | nil => rw [fillGas]; rfl
    | cons u g => cases h
  | cons y l ih =>
    cases g with
    | nil => cases h
    | cons u g =>
      rw [List.map_cons, List.map_cons, List.map_cons] at h
      injection h with h1 h2
      cases u with
      | gasEach n v =>
        have hn : n = y.1 := by
          simp only [wipe] at h1
          injection h1
        rw [List.cons_append, fillGas, ih g h2, hn]
        rfl
      | _ => cases h1

theorem fillTotal_skip (v : ℚ) (a b : List Unk) (ha : ∀ u ∈ a, u.plain = true) :
    fillTotal v (a ++ b) = a ++ fillTotal v b := by
  induction a with
  | nil => rfl
  | cons u a ih =>
    have hu := ha u List.mem_cons_self
    have ih := ih fun u hu => ha u (List.mem_cons_of_mem _ hu)
    cases u with
    | gas v => cases hu
    | gasEach n v => cases hu
    | ss p o q v => cases hu
    | _ => rw [List.cons_append, fillTotal, ih]; · rfl
           · intro _ e; cases e
           · intro _ _ e; cases e

theorem plain_no_gas (a : List Unk) (ha : ∀ u ∈ a, u.plain = true) : a.any Unk.isGas = false := by
  rw [List.any_eq_false]
  intro u hu
  have := ha u hu
  cases u <;> simp_all [Unk.plain, Unk.isGas]

theorem wipe_ss_no_gas (s : List Unk) (db : Db) (c : Cell) (h : s.map wipe = (setupSS db c).map wipe) :
    s.any Unk.isGas = false := by
  rw [← any_wipe _ (fun u => by cases u <;> rfl), h, any_wipe _ (fun u => by cases u <;> rfl), List.any_eq_false]
  intro u hu
  rw [setupSS] at hu
  cases hc : c.ss with
  | none => rw [hc] at hu; cases hu
  | some l =>
    rw [hc, List.mem_map] at hu
    obtain ⟨x, _, rfl⟩ := hu
    simp [Unk.isGas]

/-- Gas. -/
theorem quickGas_spec (db : Db) (k : Knobs) (c : Cell) (a g s : List Unk) (ha : ∀ u ∈ a, u.plain = true)
    (hg : g.map wipe = (setupGas db k c).map wipe) (hs : s.map wipe = (setupSS db c).map wipe) :
    quickGas db k c (a ++ (g ++ s)) = .ok (a ++ (setupGas db k c ++ s)) := by
  rw [quickGas, List.any_append, List.any_append, plain_no_gas a ha, wipe_ss_no_gas s db c hs]
  rw [setupGas] at hg ⊢
  cases hc : c.gas with
  | none =>
    rw [hc] at hg
    cases g with
    | nil => rfl
    | cons u g => cases hg
  | some gp =>
    rw [hc] at hg
    dsimp only at hg ⊢
    by_cases he : k.each gp = true
    · rw [if_pos he] at hg ⊢
      rw [if_pos he]
      have hf := fillGas_skip db.least gp.comps a (g ++ s) ha (fillGas_spec db.least gp.comps g s hg)
      rw [hf]
      split
      · rfl
      · rename_i hn
        have hn : g.any Unk.isGas = false := by simpa using hn
        cases hl : gp.comps with
        | nil =>
          rw [hl] at hg
          cases g with
          | nil => rfl
          | cons u g => cases hg
        | cons y l =>
          rw [hl] at hg
          cases g with
          | nil => cases hg
          | cons u g =>
            rw [List.map_cons, List.map_cons, List.map_cons] at hg
            injection hg with h1 h2
            cases u with
            | gasEach n v => simp [Unk.isGas] at hn
            | _ => cases h1
    · rw [if_neg he] at hg ⊢
      cases g with
      | nil => cases hg
      | cons u g =>
        rw [List.map_cons] at hg
        injection hg with h1 h2
        have hg0 : g = [] := by
          cases g with
          | nil => rfl
          | cons _ _ => cases h2
        cases u with
        | gas v =>
          rw [if_pos (by simp [Unk.isGas]), if_neg he, fillTotal_skip _ _ _ ha, hg0]
          rfl
        | _ => cases h1

theorem fillSS_spec (least : ℚ) (l : List (Name × SSComp)) (s : List Unk)
    (h : s.map wipe = (l.map fun x => Unk.ss x.2.name x.1 x.2.name (atLeast least x.2.moles)).map wipe) :
    fillSS least l s = .ok (l.map fun x => Unk.ss x.2.name x.1 x.2.name (atLeast least x.2.moles)) := by
  induction l generalizing s with
  | nil =>
    cases s with
    | nil => rfl
    | cons u s => cases h
  | cons y l ih =>
    cases s with
    | nil => cases h
    | cons u s =>
      rw [List.map_cons, List.map_cons, List.map_cons] at h
      injection h with h1 h2
      cases u with
      | ss p o q v =>
        have hn : p = y.2.name := by
          simp only [wipe] at h1
          injection h1
        rw [fillSS, ih s h2, hn]
        rfl
      | _ => cases h1

theorem quickSS_skip (db : Db) (c : Cell) (a b : List Unk) (ha : ∀ p o q v, Unk.ss p o q v ∉ a) {r : List Unk}
    (h : quickSS db c b = .ok r) : quickSS db c (a ++ b) = .ok (a ++ r) := by
  induction a with
  | nil => exact h
  | cons u a ih =>
    have ih := ih fun p o q v hm => ha p o q v (List.mem_cons_of_mem _ hm)
    cases u with
    | ss p o q v => exact absurd List.mem_cons_self (ha p o q v)
    | _ => rw [List.cons_append, quickSS, ih]; · rfl
           · intro _ _ _ _ e; cases e

/-- Solid solutions. -/
theorem quickSS_spec (db : Db) (c : Cell) (s : List Unk) (h : s.map wipe = (setupSS db c).map wipe) :
    quickSS db c s = .ok (setupSS db c) := by
  rw [setupSS] at h ⊢
  cases hc : c.ss with
  | none =>
    rw [hc] at h
    cases s with
    | nil => rfl
    | cons u s => cases h
  | some l =>
    rw [hc] at h
    dsimp only at h ⊢
    have hf := fillSS_spec _ _ _ h
    cases s with
    | nil =>
      cases hm : members l with
      | nil => rfl
      | cons y m => rw [hm] at h; cases h
    | cons u s =>
      cases hm : members l with
      | nil => rw [hm] at h; cases h
      | cons y m =>
        rw [hm, List.map_cons, List.map_cons, List.map_cons] at h
        injection h with h1 h2
        cases u with
        | ss p o q v =>
          rw [quickSS, hc]
          dsimp only
          rw [hf, hm]
        | _ => cases h1

/-- All elementwise changes. -/
def change (db : Db) (c : Cell) (u : Unk) : Unk := newPP c (quickBase c (upd c.tot db.masters u))

theorem change_wipe (db : Db) (c : Cell) (u : Unk) : wipe (change db c u) = wipe u := by
  cases u with
  | pp n a s d b =>
    show wipe (newPP c (.pp n a s d b)) = _
    rw [newPP]
    split <;> rfl
  | _ => rfl

theorem find_nodup (l : List PPComp) (hn : (l.map (·.name)).Nodup) (p : PPComp) (hp : p ∈ l) :
    (l.find? fun q => q.name = p.name) = some p := by
  induction l with
  | nil => cases hp
  | cons a l ih =>
    rw [List.map_cons, List.nodup_cons] at hn
    rw [List.find?_cons]
    by_cases h : a.name = p.name
    · have : a = p := by
        rcases List.mem_cons.1 hp with e | e
        · exact e.symm
        · exact absurd (h ▸ List.mem_map_of_mem e) hn.1
      rw [decide_eq_true h, this]
    · rw [decide_eq_false h]
      exact ih hn.2 ((List.mem_cons.1 hp).resolve_left fun e => h (by rw [e]))

/-- New amounts in the unknowns of the cell. -/
theorem quick_spec (db : Db) (hs : Sound db) (k : Knobs) (c : Cell) (hr : Ready db c) (xs : List Unk)
    (h : Fits db k c xs) :
    ∃ ns : List Name, ns.Nodup ∧ (∀ n, n ∈ ns ↔ n ∈ sites db c) ∧
      quick db k c xs = .ok (setupSolution db c ++ (setupBase c ++ ((ns.map fun n => .exch n (c.tot n)) ++
        (setupPP c ++ (setupGas db k c ++ setupSS db c))))) := by
  obtain ⟨ns, h1, h2, h3⟩ := h
  refine ⟨ns, h1, h2, ?_⟩
  have hany : ∀ m ∈ db.masters, m.role ≠ .skip → 0 < c.tot m.name → xs.any m.of = true := by
    intro m hm hmr hmp
    have hl : db.least < c.tot m.name := (hr.totals m hm hmr).resolve_left fun e => by rw [e] at hmp; exact lt_irrefl _ hmp
    rw [← any_wipe _ (of_wipe m), h3, skeleton, List.any_append, List.any_append, List.any_append]
    cases hro : m.role with
    | skip => exact absurd hro hmr
    | aq =>
      have : ((setupSolution db c).map wipe).any m.of = true := by
        rw [List.any_eq_true]
        refine ⟨.mb m.name 0, ?_, ?_⟩
        · rw [List.mem_map]
          refine ⟨.mb m.name (c.tot m.name), ?_, rfl⟩
          rw [setupSolution, List.mem_map]
          exact ⟨m, List.mem_filter.2 ⟨hm, decide_eq_true ⟨hro, hl⟩⟩, rfl⟩
        · exact decide_eq_true ⟨hro, rfl⟩
      rw [this]
      rfl
    | ex =>
      have : (ns.map fun n => Unk.exch n 0).any m.of = true := by
        rw [List.any_eq_true]
        refine ⟨.exch m.name 0, List.mem_map.2 ⟨m.name, (h2 _).2 ((hr.sites m hm hro).1 hl), rfl⟩, ?_⟩
        exact decide_eq_true ⟨hro, rfl⟩
      rw [this]
      simp
  rw [quick, quickTotals_spec _ _ _ hany]
  show (quickPP c ((xs.map _).map _)).bind _ = _
  -- the segments
  rw [skeleton, List.map_eq_append_iff] at h3
  obtain ⟨a, xs1, rfl, ha, h3⟩ := h3
  rw [List.map_eq_append_iff] at h3
  obtain ⟨b, xs2, rfl, hb, h3⟩ := h3
  rw [List.map_eq_append_iff] at h3
  obtain ⟨e, xs3, rfl, he, h3⟩ := h3
  rw [List.map_eq_append_iff] at h3
  obtain ⟨p, xs4, rfl, hp, h3⟩ := h3
  rw [List.map_eq_append_iff] at h3
  obtain ⟨g, s, rfl, hg, hss⟩ := h3
  -- what the changes give
  have ea : a.map (change db c) = setupSolution db c := by
    apply map_of_wipe _ _ _ _ ha
    intro u m hm hw
    have hm := List.mem_filter.1 hm
    have hm2 := of_decide_eq_true hm.2
    cases u with
    | mb n v =>
      have hn : n = m.name := by simp only [wipe] at hw; injection hw
      have hmem : (⟨n, .aq⟩ : Master) ∈ db.masters := by
        rw [hn, ← hm2.1]
        exact hm.1
      show Unk.mb n (if _ ∧ 0 < c.tot n then c.tot n else v) = _
      rw [if_pos ⟨hmem, by rw [hn]; exact lt_trans hs.least hm2.2⟩, hn]
    | _ => cases hw
  have eb : b.map (change db c) = setupBase c := by
    rw [setupBase] at hb ⊢
    rcases b with _ | ⟨x, _ | ⟨y, _ | ⟨z, _ | ⟨t, b⟩⟩⟩⟩
    · cases hb
    · simp [wipe] at hb
    · simp [wipe] at hb
    · injection hb with e1 hb
      injection hb with e2 hb
      injection hb with e3 hb
      have f1 : change db c x = .cb c.cb := by cases x <;> first | rfl | cases e1
      have f2 : change db c y = .mh (c.h - 2 * c.o) := by cases y <;> first | rfl | cases e2
      have f3 : change db c z = .mh2o c.o := by cases z <;> first | rfl | cases e3
      rw [List.map_cons, List.map_cons, List.map_cons, f1, f2, f3, List.map_nil]
    · injection hb with e1 hb
      injection hb with e2 hb
      injection hb with e3 hb
      cases hb
  have ee : e.map (change db c) = ns.map fun n => .exch n (c.tot n) := by
    rw [← wipe_exch c] at he
    apply map_of_wipe _ _ _ _ he
    intro u n hn hw
    have hs' := (h2 n).1 hn
    cases u with
    | exch k v =>
      have hk : k = n := by simp only [wipe] at hw; injection hw
      subst hk
      show Unk.exch k (if _ ∧ 0 < c.tot k then c.tot k else v) = _
      rw [if_pos ⟨mem_sites db c k hs', lt_trans hs.least (site_total db c hr k hs')⟩]
    | _ => cases hw
  have ep : p.map (change db c) = setupPP c := by
    rw [setupPP] at hp ⊢
    cases hc : c.pp with
    | none =>
      rw [hc] at hp
      cases p with
      | nil => rfl
      | cons _ _ => cases hp
    | some l =>
      rw [hc] at hp
      apply map_of_wipe _ _ _ _ hp
      intro u q hq hw
      cases u with
      | pp n x y z w =>
        have hn : n = q.name := by simp only [wipe] at hw; injection hw
        show newPP c (.pp n x y z w) = _
        rw [newPP, hc, hn]
        show (match l.find? fun p => p.name = q.name with | none => _ | some p => _) = _
        rw [find_nodup l (hr.minerals l hc) q hq]
      | _ => cases hw
  have eg : g.map (change db c) = g := by
    have : ∀ u ∈ g, change db c u = u := by
      intro u hu
      have : wipe u ∈ (setupGas db k c).map wipe := hg ▸ List.mem_map_of_mem hu
      rw [List.mem_map] at this
      obtain ⟨v, hv, hw⟩ := this
      rw [setupGas] at hv
      cases hc : c.gas with
      | none => rw [hc] at hv; cases hv
      | some gp =>
        rw [hc] at hv
        dsimp only at hv
        split at hv
        · rw [List.mem_map] at hv
          obtain ⟨x, _, rfl⟩ := hv
          cases u with
          | gasEach n v => rfl
          | _ => cases hw
        · rw [List.mem_singleton] at hv
          subst hv
          cases u with
          | gas v => rfl
          | _ => cases hw
    exact (List.map_congr_left this).trans (List.map_id g)
  have es : s.map (change db c) = s := by
    have : ∀ u ∈ s, change db c u = u := by
      intro u hu
      have : wipe u ∈ (setupSS db c).map wipe := hss ▸ List.mem_map_of_mem hu
      rw [List.mem_map] at this
      obtain ⟨v, hv, hw⟩ := this
      rw [setupSS] at hv
      cases hc : c.ss with
      | none => rw [hc] at hv; cases hv
      | some l =>
        rw [hc, List.mem_map] at hv
        obtain ⟨x, _, rfl⟩ := hv
        cases u with
        | ss _ _ _ _ => rfl
        | _ => cases hw
    exact (List.map_congr_left this).trans (List.map_id s)
  have hpp : ∀ n x y z w, Unk.pp n x y z w ∈ ((a ++ (b ++ (e ++ (p ++ (g ++ s))))).map (upd c.tot db.masters)).map (quickBase c) →
      ∃ q ∈ c.pp.getD [], q.name = n := by
    intro n x y z w hm
    have hm' : change db c (.pp n x y z w) ∈ setupSolution db c ++ (setupBase c ++ ((ns.map fun n => .exch n (c.tot n)) ++
        (setupPP c ++ (g ++ s)))) := by
      have h1 := List.mem_map_of_mem (f := newPP c) hm
      rw [List.map_map, List.map_map] at h1
      have h2 : newPP c (.pp n x y z w) ∈ (a ++ (b ++ (e ++ (p ++ (g ++ s))))).map (change db c) := h1
      rw [List.map_append, List.map_append, List.map_append, List.map_append, List.map_append, ea, eb, ee, ep, eg, es] at h2
      exact h2
    have hw : wipe (change db c (.pp n x y z w)) = .pp n 0 0 0 false := change_wipe db c _
    have hm2 : Unk.pp n 0 0 0 false ∈ (setupSolution db c ++ (setupBase c ++ ((ns.map fun n => Unk.exch n (c.tot n)) ++
        (setupPP c ++ (g ++ s))))).map wipe := hw ▸ List.mem_map_of_mem hm'
    simp only [List.map_append, List.mem_append, hg, hss] at hm2
    rcases hm2 with h | h | h | h | h | h
    · rw [List.mem_map] at h
      obtain ⟨u, hu, hw⟩ := h
      rw [setupSolution, List.mem_map] at hu
      obtain ⟨_, _, rfl⟩ := hu
      cases hw
    · simp [setupBase, wipe] at h
    · rw [List.mem_map] at h
      obtain ⟨u, hu, hw⟩ := h
      rw [List.mem_map] at hu
      obtain ⟨_, _, rfl⟩ := hu
      cases hw
    · rw [setupPP] at h
      cases hc : c.pp with
      | none => rw [hc] at h; cases h
      | some l =>
        rw [hc, List.map_map, List.mem_map] at h
        obtain ⟨q, hq, hw⟩ := h
        refine ⟨q, hq, ?_⟩
        simp only [Function.comp, wipe] at hw
        injection hw
    · rw [List.mem_map] at h
      obtain ⟨v, hv, hw⟩ := h
      rw [setupGas] at hv
      cases hc : c.gas with
      | none => rw [hc] at hv; cases hv
      | some gp =>
        rw [hc] at hv
        dsimp only at hv
        split at hv
        · rw [List.mem_map] at hv
          obtain ⟨_, _, rfl⟩ := hv
          cases hw
        · rw [List.mem_singleton] at hv
          subst hv
          cases hw
    · rw [List.mem_map] at h
      obtain ⟨v, hv, hw⟩ := h
      rw [setupSS] at hv
      cases hc : c.ss with
      | none => rw [hc] at hv; cases hv
      | some l =>
        rw [hc, List.mem_map] at hv
        obtain ⟨_, _, rfl⟩ := hv
        cases hw
  rw [quickPP_spec c _ hpp]
  have hall : ((((a ++ (b ++ (e ++ (p ++ (g ++ s))))).map (upd c.tot db.masters)).map (quickBase c)).map (newPP c)) =
      (setupSolution db c ++ (setupBase c ++ ((ns.map fun n => .exch n (c.tot n)) ++ setupPP c))) ++ (g ++ s) := by
    rw [List.map_map, List.map_map]
    show List.map (change db c) _ = _
    rw [List.map_append, List.map_append, List.map_append, List.map_append, List.map_append, ea, eb, ee, ep, eg, es]
    simp only [List.append_assoc]
  show (quickGas db k c _).bind _ = _
  have hplain : ∀ u ∈ setupSolution db c ++ (setupBase c ++ ((ns.map fun n => Unk.exch n (c.tot n)) ++ setupPP c)),
      u.plain = true := by
    intro u hu
    simp only [List.mem_append] at hu
    rcases hu with h | h | h | h
    · rw [setupSolution, List.mem_map] at h
      obtain ⟨_, _, rfl⟩ := h
      rfl
    · simp only [setupBase, List.mem_cons, List.not_mem_nil, or_false] at h
      rcases h with rfl | rfl | rfl <;> rfl
    · rw [List.mem_map] at h
      obtain ⟨_, _, rfl⟩ := h
      rfl
    · rw [setupPP] at h
      cases hc : c.pp with
      | none => rw [hc] at h; cases h
      | some l =>
        rw [hc, List.mem_map] at h
        obtain ⟨_, _, rfl⟩ := h
        rfl
  rw [hall, quickGas_spec db k c _ g s hplain hg hss]
  show quickSS db c _ = _
  rw [← List.append_assoc]
  rw [quickSS_skip db c _ s ?_ (quickSS_spec db c s hss)]
  · simp only [List.append_assoc]
  · intro x y z w hm
    rw [List.mem_append] at hm
    rcases hm with h | h
    · have := hplain _ h
      cases this
    · rw [setupGas] at h
      cases hc : c.gas with
      | none => rw [hc] at h; cases h
      | some gp =>
        rw [hc] at h
        dsimp only at h
        split at h
        · rw [List.mem_map] at h
          obtain ⟨_, _, h⟩ := h
          cases h
        · rw [List.mem_singleton] at h
          cases h

end Verif.Reuse
