import Verif.Print.Model
import Verif.Print.Spec
import Verif.Mapping.Props
import Verif.SelOut.Read
import Mathlib.Data.List.Sort

/-!
# Helpers for the text of the output file
-/

namespace Verif.Print

open Verif.Mapping Verif.Transfer Verif.Grid Verif.Ranges

theorem cat_nil : cat [] = "" := rfl

theorem cat_cons (a : String) (l : List String) : cat (a :: l) = a ++ cat l := rfl

theorem cat_append (l m : List String) : cat (l ++ m) = cat l ++ cat m := by
  induction l with
  | nil => simp [cat_nil]
  | cons a l ih => simp [cat_cons, ih, String.append_assoc]

theorem gridCells_cat (l : List Nat) :
    gridCells l = cat (l.map (fun k => toString k ++ " ")) := by
  induction l with
  | nil => rfl
  | cons a l ih => simp only [gridCells, ih, List.map_cons, cat_cons]

theorem idx_nat {α : Type} {l : List α} {n : Nat} {a : α} (h : l[n]? = some a) :
    idx l (n : Int) = .ok a := by
  unfold idx
  rw [if_neg (by omega), Int.toNat_natCast, h]

theorem cellsOf_eq {g : List Int} {s : MapState} (hc : Consistent g s) {n : Nat}
    {cells : List Nat} (h : s.backward[n]? = some cells) : cells = cellsOf g n := by
  obtain ⟨_, hs, hm⟩ := hc.back n cells h
  have hs2 : (cellsOf g n).Pairwise (· < ·) := List.Pairwise.filter _ List.pairwise_lt_range
  have hperm : cells.Perm (cellsOf g n) := by
    refine (List.perm_ext_iff_of_nodup (hs.imp (fun h => Nat.ne_of_lt h))
      (hs2.imp (fun h => Nat.ne_of_lt h))).mpr ?_
    intro k
    rw [hm, cellsOf, List.mem_filter, List.mem_range, beq_iff_eq]
    constructor
    · intro h
      exact ⟨(List.getElem?_eq_some_iff.mp h).1, h⟩
    · exact fun h => h.2
  exact hperm.eq_of_pairwise (fun a b _ _ h1 h2 => absurd h1 (by omega)) hs hs2

/-- What one cell adds to the stream, and whether it stops the worker. -/
def Adds {χ : Type} (E : Engine χ) (c : Cfg) (i : Int) (t : String) (stop : Bool) : Prop :=
  ∀ x out, ∃ x', cellStep E c i x out = .ok (x', out ++ t, stop)

theorem loop_adds {χ : Type} {E : Engine χ} {c : Cfg} (f : Int → String) (l : List Int)
    (h : ∀ i ∈ l, Adds E c i (f i) false) :
    ∀ x out, ∃ x', cellLoop E c l x out = .ok (x', out ++ cat (l.map f), false) := by
  induction l with
  | nil => intro x out; exact ⟨x, by simp [cellLoop, cat_nil]⟩
  | cons i l ih =>
    intro x out
    obtain ⟨x1, h1⟩ := h i (by simp) x out
    obtain ⟨x2, h2⟩ := ih (fun j hj => h j (by simp [hj])) x1 (out ++ f i)
    refine ⟨x2, ?_⟩
    simp only [cellLoop, h1, Out.ok_bind, Bool.false_eq_true, if_false, h2, List.map_cons,
      cat_cons, String.append_assoc]

theorem loop_stops {χ : Type} {E : Engine χ} {c : Cfg} (f : Int → String) (l : List Int)
    (i : Int) (t : String) (rest : List Int)
    (h : ∀ i ∈ l, Adds E c i (f i) false) (hi : Adds E c i t true) :
    ∀ x out, ∃ x', cellLoop E c (l ++ i :: rest) x out =
      .ok (x', out ++ cat (l.map f) ++ t, true) := by
  induction l with
  | nil =>
    intro x out
    obtain ⟨x1, h1⟩ := hi x out
    exact ⟨x1, by simp [cellLoop, h1, cat_nil]⟩
  | cons k l ih =>
    intro x out
    obtain ⟨x1, h1⟩ := h k (by simp) x out
    obtain ⟨x2, h2⟩ := ih (fun j hj => h j (by simp [hj])) x1 (out ++ f k)
    refine ⟨x2, ?_⟩
    simp only [List.cons_append, cellLoop, h1, Out.ok_bind, Bool.false_eq_true, if_false, h2,
      List.map_cons, cat_cons, String.append_assoc]

theorem workers_adds {χ : Type} {E : Engine χ} {c : Cfg} (f : Int → String)
    (rs : List (Int × Int)) (h : ∀ i ∈ rs.flatMap rangeCells, Adds E c i (f i) false) :
    ∀ xs file, rs.length = xs.length → ∃ xs', workers E c rs xs file =
      .ok (xs', file ++ (if c.on then cat ((rs.flatMap rangeCells).map f) else ""), false) := by
  induction rs with
  | nil => intro xs file _; exact ⟨xs, by simp [workers, cat_nil]⟩
  | cons r rs ih =>
    intro xs file hl
    cases xs with
    | nil => simp at hl
    | cons x xs =>
      obtain ⟨x1, h1⟩ := loop_adds f (rangeCells r)
        (fun i hi => h i (by simp only [List.flatMap_cons, List.mem_append]; exact Or.inl hi)) x ""
      obtain ⟨xs1, h2⟩ := ih
        (fun i hi => h i (by simp only [List.flatMap_cons, List.mem_append]; exact Or.inr hi)) xs
        (if c.on then file ++ ("" ++ cat ((rangeCells r).map f)) else file) (by simpa using hl)
      refine ⟨x1 :: xs1, ?_⟩
      simp only [workers, h1, Out.ok_bind, h2, Out.pure_eq, Bool.or_false]
      cases c.on <;>
        simp [List.map_append, cat_append, String.append_assoc]

end Verif.Print

namespace Verif.Print

open Verif.Mapping Verif.Transfer Verif.Grid Verif.Ranges

theorem workers_texts {χ : Type} {E : Engine χ} {c : Cfg} (w : Int × Int → String)
    (st : Int × Int → Bool) (rs : List (Int × Int))
    (h : ∀ r ∈ rs, ∀ x, ∃ x', cellLoop E c (rangeCells r) x "" = .ok (x', w r, st r)) :
    ∀ xs file, rs.length = xs.length → ∃ xs', workers E c rs xs file =
      .ok (xs', file ++ (if c.on then cat (rs.map w) else ""), rs.any st) := by
  induction rs with
  | nil => intro xs file _; exact ⟨xs, by simp [workers, cat_nil]⟩
  | cons r rs ih =>
    intro xs file hl
    cases xs with
    | nil => simp at hl
    | cons x xs =>
      obtain ⟨x1, h1⟩ := h r (by simp) x
      obtain ⟨xs1, h2⟩ := ih (fun q hq => h q (by simp [hq])) xs
        (if c.on then file ++ w r else file) (by simpa using hl)
      refine ⟨x1 :: xs1, ?_⟩
      simp only [workers, h1, Out.ok_bind, h2, Out.pure_eq, List.any_cons]
      cases c.on <;> simp [cat_cons, String.append_assoc]

/-- What the calculation of each reaction cell yields, whatever was calculated before. -/
structure Yields {χ : Type} (E : Engine χ) (bad : Nat → Bool) (text : Nat → String) : Prop where
  on : ∀ (n : Nat) x, (E.run n true x).2 = (bad n, text n)
  off : ∀ (n : Nat) x, (E.run n false x).2.1 = bad n

/-- What a cell that does not stop its worker adds. -/
noncomputable def adds (g : List Int) (c : Cfg) (fate : Nat → Fate) (n : Nat) : String :=
  if c.on then shownOf g c.mask (c.num (c.time * c.conv)) fate n else ""

theorem parts (A T N B I C G t : String) :
    cat [A, T, N, B, I, N, C, G, N, t] =
      A ++ T ++ N ++ B ++ I ++ N ++ C ++ G ++ (N ++ t) := by
  simp only [cat_cons, cat_nil, String.append_assoc, String.append_empty]

theorem section_parts (c : Cfg) (n : Nat) (cells : List Nat) (f : Fate) (t : String)
    (h : ∀ time, sectionOf time n cells f = cat ["Time:                   ", time, "\n",
       "Chemistry cell:         ", toString n, "\n",
       "Grid cell(s) (0-based): ", cat (cells.map (fun k => toString k ++ " ")), "\n", t]) :
    sectionOf (c.num (c.time * c.conv)) n cells f = heading c (n : Int) cells ++ ("\n" ++ t) := by
  have e : toString (n : Int) = toString n := rfl
  have h' := h (c.num (c.time * c.conv))
  unfold heading
  generalize "Time:                   " = A at *
  generalize "Chemistry cell:         " = B at *
  generalize "Grid cell(s) (0-based): " = C at *
  generalize "\n" = N at *
  rw [h', gridCells_cat, parts, e]

theorem section_dry (c : Cfg) (n : Nat) (cells : List Nat) :
    sectionOf (c.num (c.time * c.conv)) n cells .dry =
      heading c (n : Int) cells ++ "\nCell is dry.\n" := by
  rw [show "\nCell is dry.\n" = "\n" ++ "Cell is dry.\n" by decide]
  exact section_parts c n cells _ _ (fun _ => rfl)

theorem section_failed (c : Cfg) (n : Nat) (cells : List Nat) :
    sectionOf (c.num (c.time * c.conv)) n cells .failed =
      heading c (n : Int) cells ++ "\nCalculation failure.\n" := by
  rw [show "\nCalculation failure.\n" = "\n" ++ "Calculation failure.\n" by decide]
  exact section_parts c n cells _ _ (fun _ => rfl)

theorem section_done (c : Cfg) (n : Nat) (cells : List Nat) (t : String) :
    sectionOf (c.num (c.time * c.conv)) n cells (.done t) =
      heading c (n : Int) cells ++ ("\n" ++ t) :=
  section_parts c n cells _ _ (fun _ => rfl)

section
variable {χ : Type} {E : Engine χ} {c : Cfg} {g : List Int} {bad : Nat → Bool}
  {text : Nat → String} {fate : Nat → Fate}

/-- The lookups of one cell. -/
theorem lookups (hc : Consistent g c.map) (hm : c.mask.length = g.length)
    (hs : c.sat.length = g.length) {n : Nat} (hn : n < c.map.count) :
    ∃ k m s, idx c.map.backward (n : Int) = .ok (cellsOf g n) ∧
      idx (cellsOf g n) 0 = .ok k ∧ idx c.mask (k : Int) = .ok m ∧ idx c.sat (k : Int) = .ok s ∧
      (cellsOf g n).head? = some k ∧ k ∈ cellsOf g n ∧ c.mask[k]? = some m ∧
      c.sat[k]? = some s := by
  obtain ⟨cells, hb⟩ : ∃ cells, c.map.backward[n]? = some cells :=
    ⟨_, List.getElem?_eq_getElem (by rw [hc.back_len]; exact hn)⟩
  obtain ⟨hne, _, hmem⟩ := hc.back n cells hb
  have he := cellsOf_eq hc hb
  rw [← he]
  cases cells with
  | nil => exact absurd rfl hne
  | cons k ks =>
    have hk := (hmem k).mp (by simp)
    have hkl := (List.getElem?_eq_some_iff.mp hk).1
    refine ⟨k, c.mask[k]'(by omega), c.sat[k]'(by omega), idx_nat hb, rfl,
      idx_nat (List.getElem?_eq_getElem _), idx_nat (List.getElem?_eq_getElem _), rfl, by simp,
      List.getElem?_eq_getElem _, List.getElem?_eq_getElem _⟩

theorem shown_iff {n k : Nat} {m : Int} (ha : Agree g c.mask) (hk : k ∈ cellsOf g n)
    (hm : c.mask[k]? = some m) :
    (∃ k ∈ cellsOf g n, ∃ m, c.mask[k]? = some m ∧ m ≠ 0) ↔ m ≠ 0 := by
  have mem : ∀ k, k ∈ cellsOf g n → g[k]? = some (n : Int) := by
    intro k hk
    rw [cellsOf, List.mem_filter, beq_iff_eq] at hk
    exact hk.2
  constructor
  · rintro ⟨k', hk', m', hm', hne⟩ h0
    exact hne ((ha k k' n m m' (mem k hk) (mem k' hk') hm hm').mp h0)
  · exact fun h => ⟨k, hk, m, hm, h⟩

theorem cell_adds (hc : Consistent g c.map) (hm : c.mask.length = g.length)
    (hs : c.sat.length = g.length) (hy : Yields E bad text) (ha : Agree g c.mask)
    (hf : ∀ n, FateOf g c.sat n (bad n) (text n) (fate n)) {n : Nat} (hn : n < c.map.count)
    (hg : 3 ≤ c.mode ∨ (Wet g c.sat n → bad n = false)) :
    Adds E c (n : Int) (adds g c fate n) false := by
  intro x out
  obtain ⟨k, m, s, h1, h2, h3, h4, h5, h6, h7, h8⟩ := lookups hc hm hs hn
  have hwet : Wet g c.sat n ↔ 1 / 1000000 < s := by
    constructor
    · rintro ⟨k', s', e1, e2, e3⟩
      rw [h5] at e1
      obtain rfl := Option.some.inj e1
      rw [h8] at e2
      obtain rfl := Option.some.inj e2
      exact e3
    · exact fun h => ⟨k, s, h5, h8, h⟩
  have hsh := shown_iff ha h6 h7
  obtain ⟨f1, f2, f3⟩ := hf n
  have htext : adds g c fate n = if (c.on && m != 0) = true then
      sectionOf (c.num (c.time * c.conv)) n (cellsOf g n) (fate n) else "" := by
    unfold adds shownOf
    cases hon : c.on
    · simp
    · by_cases hm0 : m = 0
      · rw [if_pos rfl, if_neg (by rw [hsh]; simp [hm0])]
        simp [hm0]
      · rw [if_pos rfl, if_pos (by rw [hsh]; exact hm0)]
        simp [hm0]
  rw [htext]
  unfold cellStep
  simp only [h1, Out.ok_bind, h2, h3, h4]
  by_cases hw : s ≤ 1 / 1000000
  · rw [if_pos hw, f1 (by rw [hwet]; exact not_lt.mpr hw)]
    refine ⟨x, ?_⟩
    cases (c.on && m != 0)
    · simp
    · rw [section_dry]; rfl
  · rw [if_neg hw]
    have hw' : Wet g c.sat n := hwet.mpr (not_le.mp hw)
    cases hp : (c.on && m != 0)
    · have hb := hy.off n x
      rw [hb]
      cases hbad : bad n
      · exact ⟨_, by simp; rfl⟩
      · have h3 : ¬ c.mode < 3 := by
          rcases hg with h | h
          · omega
          · rw [h hw'] at hbad; cases hbad
        rw [if_pos rfl, if_neg h3]
        exact ⟨_, by simp; rfl⟩
    · have hb := hy.on n x
      rw [hb]
      cases hbad : bad n
      · rw [f3 hw' hbad]
        refine ⟨(E.run n true x).1, ?_⟩
        rw [section_done, getOutputString]
        simp only [Bool.false_eq_true, if_false, String.append_assoc, Out.pure_eq, if_true]
      · have h3 : ¬ c.mode < 3 := by
          rcases hg with h | h
          · omega
          · rw [h hw'] at hbad; cases hbad
        rw [f2 hw' hbad, if_pos rfl, if_neg h3]
        refine ⟨(E.run n true x).1, ?_⟩
        rw [section_failed]; rfl

/-- A cell that stops its worker. -/
theorem cell_stops (hc : Consistent g c.map) (hm : c.mask.length = g.length)
    (hs : c.sat.length = g.length) (hy : Yields E bad text) {n : Nat} (hn : n < c.map.count)
    (hmode : c.mode < 3) (hw : Wet g c.sat n) (hb : bad n = true)
    (hon : c.on = true) (hp : ∀ k m, k ∈ cellsOf g n → c.mask[k]? = some m → m ≠ 0) :
    Adds E c (n : Int) (text n) true := by
  intro x out
  obtain ⟨k, m, s, h1, h2, h3, h4, h5, h6, h7, h8⟩ := lookups hc hm hs hn
  have hws : 1 / 1000000 < s := by
    obtain ⟨k', s', e1, e2, e3⟩ := hw
    rw [h5] at e1
    obtain rfl := Option.some.inj e1
    rw [h8] at e2
    obtain rfl := Option.some.inj e2
    exact e3
  unfold cellStep
  simp only [h1, Out.ok_bind, h2, h3, h4]
  have hpr : (c.on && m != 0) = true := by
    rw [hon]
    simpa using hp k m h6 h7
  rw [if_neg (not_le.mpr hws), hpr, hy.on n x, if_pos hb, if_pos hmode]
  exact ⟨_, rfl⟩

end

end Verif.Print
