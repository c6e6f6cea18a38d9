import Verif.CellList.Model
import Mathlib.Tactic.SplitIfs
import Mathlib.Tactic.Linarith

/-!
# C57, C98, C99: lists of cells select what is written
-/

namespace Verif.CellList

open Verif.Store

/-! ## Specification: how numbers and ranges are written, and what they mean -/

/-- The digit for a number below ten. -/
def digit (n : Nat) : Char := Char.ofNat (48 + n)

/-- Decimal digits of a number. -/
def digits (n : Nat) : List Char :=
  if n < 10 then [digit n] else digits (n / 10) ++ [digit (n % 10)]

/-- An integer in decimal. -/
def text (i : Int) : List Char := if i < 0 then '-' :: digits i.natAbs else digits i.natAbs

/-- A word of a list: a number, or a range `a-b`. -/
inductive Word
  | one (a : Int)
  | range (a b : Int)

/-- How it is written. -/
def Word.text : Word → List Char
  | .one a => CellList.text a
  | .range a b => CellList.text a ++ '-' :: CellList.text b

/-- What it stands for; the ends of a range may be written in either order. -/
def Word.Sel (n : Int) : Word → Prop
  | .one a => n = a
  | .range a b => min a b ≤ n ∧ n ≤ max a b

/-- The numbers are ints; a range does not reach the largest `int`. -/
def Word.Ok : Word → Prop
  | .one a => InInt a
  | .range a b => InInt a ∧ InInt b ∧ (a ≠ b → a < 2147483647 ∧ b < 2147483647)

/-- What an item selects: everything if it is defined without numbers. -/
def Item.Selects (it : Item) (n : Int) : Prop := it.defined = true ∧ (it.numbers = [] ∨ n ∈ it.numbers)

/-! ## Lemmas: digits -/

theorem digit_facts : ∀ d ∈ List.range 10, (digit d).isDigit = true ∧ (digit d).toNat - 48 = d ∧
    digit d ≠ '-' ∧ digit d ≠ '&' ∧ digit d ≠ ' ' ∧ digit d ≠ '+' := by decide

theorem digit_isDigit {d : Nat} (h : d < 10) : (digit d).isDigit = true :=
  (digit_facts d (List.mem_range.mpr h)).1
theorem digit_val {d : Nat} (h : d < 10) : (digit d).toNat - 48 = d :=
  (digit_facts d (List.mem_range.mpr h)).2.1

/-- A decimal digit. -/
def IsDig (c : Char) : Prop := ∃ d < 10, c = digit d

theorem IsDig.isDigit {c : Char} (h : IsDig c) : c.isDigit = true := by
  obtain ⟨d, hd, rfl⟩ := h; exact digit_isDigit hd
theorem IsDig.ne {c : Char} (h : IsDig c) : c ≠ '-' ∧ c ≠ '&' ∧ c ≠ ' ' ∧ c ≠ '+' := by
  obtain ⟨d, hd, rfl⟩ := h; exact (digit_facts d (List.mem_range.mpr hd)).2.2

theorem digits_isDig (n : Nat) : ∀ c ∈ digits n, IsDig c := by
  induction n using Nat.strong_induction_on with
  | _ n ih =>
    intro c hc
    rw [digits] at hc
    split at hc
    · rename_i h
      simp only [List.mem_singleton] at hc
      exact ⟨n, h, hc⟩
    · rename_i h
      rcases List.mem_append.mp hc with hc | hc
      · exact ih (n / 10) (by omega) c hc
      · simp only [List.mem_singleton] at hc
        exact ⟨n % 10, by omega, hc⟩

theorem digits_ne_nil (n : Nat) : digits n ≠ [] := by
  rw [digits]
  split <;> simp

theorem readDigits_append (ds rest : List Char) (h : ∀ c ∈ ds, IsDig c) : ∀ v,
    readDigits (ds ++ rest) v = readDigits rest (readDigits ds v).1 := by
  induction ds with
  | nil => intro v; simp [readDigits]
  | cons c ds ih =>
    intro v
    have hc := (h c List.mem_cons_self).isDigit
    simp only [List.cons_append, readDigits, hc, if_true]
    exact ih (fun x hx => h x (List.mem_cons_of_mem _ hx)) _

theorem readDigits_digits (n : Nat) : (readDigits (digits n) 0).1 = n := by
  induction n using Nat.strong_induction_on with
  | _ n ih =>
    rw [digits]
    split
    · rename_i h
      simp [readDigits, digit_isDigit h, digit_val h]
    · rename_i h
      rw [readDigits_append _ _ (digits_isDig _), ih (n / 10) (by omega)]
      have hm : n % 10 < 10 := by omega
      simp only [readDigits, digit_isDigit hm, digit_val hm, if_true]
      omega

/-- The rest after a number does not begin with a digit. -/
def Stops (rest : List Char) : Prop := ∀ c ∈ rest.head?, c.isDigit = false

theorem readDigits_stop (rest : List Char) (h : Stops rest) (v : Nat) :
    readDigits rest v = (v, rest) := by
  cases rest with
  | nil => rfl
  | cons c cs =>
    have := h c (by simp)
    simp [readDigits, this]

theorem digits_head (n : Nat) : ∃ c cs, digits n = c :: cs ∧ IsDig c := by
  cases h : digits n with
  | nil => exact absurd h (digits_ne_nil n)
  | cons c cs => exact ⟨c, cs, rfl, digits_isDig n c (by rw [h]; exact List.mem_cons_self)⟩

theorem readInt_spaces (s : List Char) : readInt (' ' :: s) = readInt s := by
  simp [readInt]

/-- A number that is written is read. -/
theorem readInt_text (i : Int) (hi : InInt i) (rest : List Char) (h : Stops rest) :
    readInt (text i ++ rest) = some (i, rest) := by
  have key : readDigits (digits i.natAbs ++ rest) 0 = (i.natAbs, rest) := by
    rw [readDigits_append _ _ (digits_isDig _), readDigits_digits, readDigits_stop _ h]
  obtain ⟨c, cs, hd, hc⟩ := digits_head i.natAbs
  rw [hd] at key
  obtain ⟨n1, _, n3, n4⟩ := hc.ne
  unfold text
  by_cases hneg : i < 0
  · rw [if_pos hneg, hd]
    have hv : -((i.natAbs : Int)) = i := by omega
    have : (List.dropWhile (· = ' ') ('-' :: c :: cs ++ rest)) = '-' :: c :: cs ++ rest := by
      simp
    unfold readInt
    rw [this]
    simp only [List.cons_append] at key
    simp only [List.cons_append, List.head?_cons, true_or, if_true, List.tail_cons, hc.isDigit, key,
      hv, hi]
  · rw [if_neg hneg, hd]
    have hv : ((i.natAbs : Int)) = i := by omega
    have : (List.dropWhile (· = ' ') (c :: cs ++ rest)) = c :: cs ++ rest := by
      simp [n3]
    unfold readInt
    rw [this]
    simp only [List.cons_append] at key
    simp [hc.isDigit, key, hv, hi, n1, n4]

/-! ## Lemmas: splitting a range -/

theorem replaceDD_digits (ds rest : List Char) (h : ∀ c ∈ ds, IsDig c) :
    replaceDD (ds ++ rest) = ds ++ replaceDD rest := by
  induction ds with
  | nil => rfl
  | cons c ds ih =>
    have hc := (h c List.mem_cons_self).ne.1
    have ih := ih (fun x hx => h x (List.mem_cons_of_mem _ hx))
    rw [List.cons_append, List.cons_append, ← ih]
    cases ds ++ rest with
    | nil => rfl
    | cons d r => simp [replaceDD, hc]

theorem replaceDD_text (i : Int) (rest : List Char) :
    replaceDD (text i ++ rest) = text i ++ replaceDD rest := by
  unfold text
  by_cases hneg : i < 0
  · rw [if_pos hneg]
    obtain ⟨c, cs, hd, hc⟩ := digits_head i.natAbs
    have := replaceDD_digits (digits i.natAbs) rest (digits_isDig _)
    rw [hd] at this ⊢
    rw [List.cons_append, List.cons_append, List.cons_append, replaceDD]
    simp only [hc.ne.1, and_false, if_false]
    rw [List.cons_append] at this
    rw [this]
  · rw [if_neg hneg]
    exact replaceDD_digits _ _ (digits_isDig _)

theorem map_dig (ds : List Char) (h : ∀ c ∈ ds, IsDig c) (a b : Char) (ha : ∀ c, IsDig c → c ≠ a) :
    ds.map (fun x => if x = a then b else x) = ds := by
  conv_rhs => rw [← List.map_id ds]
  apply List.map_congr_left
  intro c hc
  simp [ha c (h c hc)]

/-- After the first character of a number nothing is replaced. -/
theorem replaceTail_text (i : Int) (rest : List Char) (a b : Char) (ha : ∀ c, IsDig c → c ≠ a) :
    replaceTail a b (text i ++ rest) = text i ++ rest.map (fun x => if x = a then b else x) := by
  unfold text
  by_cases hneg : i < 0
  · rw [if_pos hneg, List.cons_append, replaceTail, List.map_append,
      map_dig _ (digits_isDig _) a b ha, List.cons_append]
  · rw [if_neg hneg]
    obtain ⟨c, cs, hd, hc⟩ := digits_head i.natAbs
    have hcs : ∀ x ∈ cs, IsDig x := fun x hx => digits_isDig i.natAbs x (by
      rw [hd]; exact List.mem_cons_of_mem _ hx)
    rw [hd, List.cons_append, replaceTail, List.map_append, map_dig _ hcs a b ha,
      List.cons_append]

theorem dash_ne : ∀ c, IsDig c → c ≠ '-' := fun _ h => h.ne.1
theorem amp_ne : ∀ c, IsDig c → c ≠ '&' := fun _ h => h.ne.2.1

theorem tokenNumbers_one (a : Int) (ha : InInt a) : tokenNumbers (text a) = [a] := by
  have h1 : replaceDD (text a) = text a := by simpa [replaceDD] using replaceDD_text a []
  have h2 : replaceTail '-' ' ' (text a) = text a := by
    simpa using replaceTail_text a [] '-' ' ' dash_ne
  have h3 : replaceTail '&' '-' (text a) = text a := by
    simpa using replaceTail_text a [] '&' '-' amp_ne
  have h4 : readInt (text a) = some (a, []) := by
    simpa using readInt_text a ha [] (by simp [Stops])
  unfold tokenNumbers
  rw [h1, h2, h3]
  have h5 : readInt [] = none := rfl
  simp [h4, h5]

theorem tokenNumbers_range (a b : Int) (ha : InInt a) (hb : InInt b) :
    tokenNumbers (Word.range a b).text = OSet.ins [a] b := by
  have split : replaceTail '&' '-' (replaceTail '-' ' ' (replaceDD (text a ++ '-' :: text b))) =
      text a ++ ' ' :: text b := by
    rw [replaceDD_text]
    by_cases hneg : b < 0
    · have e : text b = '-' :: digits b.natAbs := by rw [text, if_pos hneg]
      rw [e, replaceDD]
      simp only [and_self, if_true]
      rw [replaceTail_text a _ '-' ' ' dash_ne]
      have : List.map (fun x => if x = '-' then ' ' else x) (' ' :: '&' :: digits b.natAbs) =
          ' ' :: '&' :: digits b.natAbs := by
        rw [List.map_cons, List.map_cons, map_dig _ (digits_isDig _) _ _ dash_ne]
        rfl
      rw [this, replaceTail_text a _ '&' '-' amp_ne]
      rw [List.map_cons, List.map_cons, map_dig _ (digits_isDig _) _ _ amp_ne]
      rfl
    · have e : text b = digits b.natAbs := by rw [text, if_neg hneg]
      obtain ⟨c, cs, hd, hc⟩ := digits_head b.natAbs
      have h1 : replaceDD ('-' :: digits b.natAbs) = '-' :: digits b.natAbs := by
        have := replaceDD_digits (digits b.natAbs) [] (digits_isDig _)
        rw [List.append_nil] at this
        rw [hd] at this ⊢
        rw [replaceDD]
        simp only [hc.ne.1, and_false, if_false]
        rw [this]
        simp [replaceDD]
      rw [e, h1, replaceTail_text a _ '-' ' ' dash_ne]
      rw [List.map_cons, map_dig _ (digits_isDig _) _ _ dash_ne]
      rw [replaceTail_text a _ '&' '-' amp_ne]
      rw [List.map_cons, map_dig _ (digits_isDig _) _ _ amp_ne]
      rfl
  have h1 : readInt (text a ++ ' ' :: text b) = some (a, ' ' :: text b) :=
    readInt_text a ha _ (by simp [Stops])
  have h2 : readInt (' ' :: text b) = some (b, []) := by
    rw [readInt_spaces]
    simpa using readInt_text b hb [] (by simp [Stops])
  unfold tokenNumbers
  simp only [Word.text]
  rw [split]
  simp [h1, h2]

theorem text_ne_nil (a : Int) : text a ≠ [] := by
  unfold text
  split
  · simp
  · exact digits_ne_nil _

theorem Word.text_ne_nil (w : Word) : w.text ≠ [] := by
  cases w with
  | one a => exact CellList.text_ne_nil a
  | range a b => simp [Word.text]

theorem mem_between (i j n : Int) : n ∈ between i j ↔ i ≤ n ∧ n ≤ j := by
  simp only [between, List.mem_map, List.mem_range]
  constructor
  · rintro ⟨m, hm, rfl⟩; omega
  · rintro ⟨h1, h2⟩; exact ⟨(n - i).toNat, by omega, by omega⟩

/-- One word adds exactly what it stands for. -/
theorem augment_word (it : Item) (w : Word) (hw : w.Ok) :
    ∃ s, augment it w.text = .ok ⟨s, true⟩ ∧ ∀ n, n ∈ s ↔ n ∈ it.numbers ∨ w.Sel n := by
  unfold augment
  rw [if_neg w.text_ne_nil]
  cases w with
  | one a =>
    simp only [Word.text, tokenNumbers_one a hw]
    exact ⟨_, rfl, fun n => by rw [OSet.mem_ins]; simp only [Word.Sel]; exact or_comm⟩
  | range a b =>
    obtain ⟨ha, hb, hm⟩ := hw
    rw [tokenNumbers_range a b ha hb]
    simp only [OSet.ins]
    split
    · rename_i heq
      split_ifs at heq with c1 c2
      · simp at heq
      · simp only [List.cons.injEq, and_true] at heq
        subst heq
        refine ⟨_, rfl, fun n => ?_⟩
        rw [OSet.mem_ins]
        simp only [Word.Sel, c2, min_self, max_self]
        constructor
        · rintro (h | h)
          · right; omega
          · exact .inl h
        · rintro (h | h)
          · exact .inr h
          · left; omega
      · simp at heq
    · rename_i i j heq
      split_ifs at heq with c1 c2
      · simp only [List.cons.injEq, and_true] at heq
        obtain ⟨rfl, rfl⟩ := heq
        have := hm (by omega)
        rw [if_neg (by omega)]
        refine ⟨_, rfl, fun n => ?_⟩
        rw [OSet.mem_insAll, mem_between]
        simp only [Word.Sel, min_eq_right (le_of_lt c1), max_eq_left (le_of_lt c1)]
      · simp at heq
      · simp only [List.cons.injEq, and_true] at heq
        obtain ⟨rfl, rfl⟩ := heq
        have hlt : a < b := by omega
        have := hm (by omega)
        rw [if_neg (by omega)]
        refine ⟨_, rfl, fun n => ?_⟩
        rw [OSet.mem_insAll, mem_between]
        simp only [Word.Sel, min_eq_left (le_of_lt hlt), max_eq_right (le_of_lt hlt)]
    · rename_i h1 h2
      exfalso
      split_ifs at h1 h2 with c1 c2
      · exact h2 _ _ rfl
      · exact h1 _ rfl
      · exact h2 _ _ rfl

theorem augmentLine_words (ws : List Word) (hw : ∀ w ∈ ws, w.Ok) : ∀ it : Item,
    ∃ s, augmentLine it (ws.map Word.text) = .ok ⟨s, true⟩ ∧
      ∀ n, n ∈ s ↔ n ∈ it.numbers ∨ ∃ w ∈ ws, w.Sel n := by
  induction ws with
  | nil =>
    intro it
    exact ⟨it.numbers, by simp [augmentLine, augment], by simp⟩
  | cons w ws ih =>
    intro it
    obtain ⟨s, h1, h2⟩ := augment_word it w (hw w List.mem_cons_self)
    obtain ⟨s', h3, h4⟩ := ih (fun x hx => hw x (List.mem_cons_of_mem _ hx)) ⟨s, true⟩
    refine ⟨s', by simp [augmentLine, h1, h3], fun n => ?_⟩
    rw [h4]
    simp only [h2, List.mem_cons, exists_eq_or_imp]
    tauto

theorem Word.sel_some (w : Word) : ∃ n, w.Sel n := by
  cases w with
  | one a => exact ⟨a, rfl⟩
  | range a b => exact ⟨min a b, le_refl _, min_le_max⟩

/-- **C57 (partial).** A line with a list of numbers and ranges selects exactly what is written;
without numbers it selects everything. Not covered: numbers that are no ints and ranges up to the
largest int (see `out_of_range_selects_all`). -/
theorem list_selects_partial (ws : List Word) (hw : ∀ w ∈ ws, w.Ok) :
    ∃ it, augmentLine ⟨[], false⟩ (ws.map Word.text) = .ok it ∧
      ∀ n, it.Selects n ↔ (ws = [] ∨ ∃ w ∈ ws, w.Sel n) := by
  obtain ⟨s, h1, h2⟩ := augmentLine_words ws hw ⟨[], false⟩
  refine ⟨_, h1, fun n => ?_⟩
  simp only [Item.Selects, true_and, h2, List.not_mem_nil, false_or]
  constructor
  · rintro (h | h)
    · left
      by_contra hne
      obtain ⟨w, hw'⟩ := List.exists_mem_of_ne_nil _ hne
      obtain ⟨m, hm⟩ := w.sel_some
      have : m ∈ s := (h2 m).mpr (.inr ⟨w, hw', hm⟩)
      rw [h] at this
      simp at this
    · exact .inr h
  · rintro (h | h)
    · left
      subst h
      apply List.eq_nil_iff_forall_not_mem.mpr
      intro m hm
      simpa using (h2 m).mp hm
    · exact .inr h

/-! ## Several lines: DELETE -/

/-- A line of a `DELETE` definition. -/
structure Line where
  opt   : Opt
  words : List Word

/-- What a line asks to delete. -/
def Line.Asks (l : Line) (k : Kind) (n : Int) : Prop :=
  match l.opt with
  | .kind k' => k' = k ∧ (l.words = [] ∨ ∃ w ∈ l.words, w.Sel n)
  | .all => True
  | .cells => l.words = [] ∨ ∃ w ∈ l.words, w.Sel n

def Line.raw (l : Line) : Opt × List (List Char) := (l.opt, l.words.map Word.text)

theorem mem_allItems (k : Kind) : k ∈ allItems := by cases k <;> simp [allItems]

/-- Numbers asked for by lines about one thing. -/
def Asked (o : Opt) (ls : List Line) (n : Int) : Prop :=
  ∃ l ∈ ls, l.opt = o ∧ ∃ w ∈ l.words, w.Sel n

/-- The state after some lines, all with numbers. -/
structure After (ls : List Line) (b : BinList) : Prop where
  items : ∀ k n, n ∈ (b.items k).numbers ↔ Asked (.kind k) ls n
  defd  : ∀ k, (b.items k).defined = true ↔ ∃ l ∈ ls, l.opt = .kind k
  cell  : ∀ n, n ∈ b.cell.numbers ↔ Asked .cells ls n
  celld : b.cell.defined = true ↔ ∃ l ∈ ls, l.opt = .cells

theorem readLines_after (ls : List Line) (hw : ∀ l ∈ ls, ∀ w ∈ l.words, w.Ok)
    (hn : ∀ l ∈ ls, l.opt ≠ .all) : ∀ (done : List Line) (b : BinList), After done b →
    ∃ b', readLines b (ls.map Line.raw) = .ok b' ∧ After (done ++ ls) b' := by
  induction ls with
  | nil => intro done b hb; exact ⟨b, rfl, by simpa using hb⟩
  | cons l ls ih =>
    intro done b hb
    have hl := hn l List.mem_cons_self
    have hwl := hw l List.mem_cons_self
    obtain ⟨o, ws⟩ := l
    suffices h : ∃ b', readLine b (Line.raw ⟨o, ws⟩) = .ok b' ∧ After (done ++ [⟨o, ws⟩]) b' by
      obtain ⟨b', h1, h2⟩ := h
      obtain ⟨b'', h3, h4⟩ := ih (fun l hl => hw l (List.mem_cons_of_mem _ hl))
        (fun l hl => hn l (List.mem_cons_of_mem _ hl)) _ b' h2
      refine ⟨b'', by simp [readLines, h1, h3], ?_⟩
      rwa [List.append_assoc, List.singleton_append] at h4
    cases o with
    | all => exact absurd rfl hl
    | kind k =>
      obtain ⟨s, h1, h2⟩ := augmentLine_words ws hwl (b.items k)
      refine ⟨_, by simp only [readLine, Line.raw, h1, Out.ok_bind]; rfl, ?_, ?_, ?_, ?_⟩
      · intro k' n
        by_cases hk : k' = k
        · subst hk
          simp only [if_true, h2, hb.items, Asked, List.mem_append, List.mem_singleton]
          constructor
          · rintro (⟨l, h3, h4⟩ | h3)
            · exact ⟨l, .inl h3, h4⟩
            · exact ⟨_, .inr rfl, rfl, h3⟩
          · rintro ⟨l, h3 | rfl, h4, h5⟩
            · exact .inl ⟨l, h3, h4, h5⟩
            · exact .inr h5
        · simp only [hk, if_false, hb.items, Asked, List.mem_append, List.mem_singleton]
          constructor
          · rintro ⟨l, h3, h4⟩
            exact ⟨l, .inl h3, h4⟩
          · rintro ⟨l, h3 | rfl, h4, h5⟩
            · exact ⟨l, h3, h4, h5⟩
            · simp only [Opt.kind.injEq] at h4
              exact absurd h4.symm hk
      · intro k'
        by_cases hk : k' = k
        · subst hk
          simp only [if_true, true_iff]
          exact ⟨_, List.mem_append_right _ List.mem_cons_self, rfl⟩
        · simp only [hk, if_false, hb.defd, List.mem_append, List.mem_singleton]
          constructor
          · rintro ⟨l, h3, h4⟩
            exact ⟨l, .inl h3, h4⟩
          · rintro ⟨l, h3 | rfl, h4⟩
            · exact ⟨l, h3, h4⟩
            · simp only [Opt.kind.injEq] at h4
              exact absurd h4.symm hk
      · intro n
        simp only [hb.cell, Asked, List.mem_append, List.mem_singleton]
        constructor
        · rintro ⟨l, h3, h4⟩
          exact ⟨l, .inl h3, h4⟩
        · rintro ⟨l, h3 | rfl, h4, h5⟩
          · exact ⟨l, h3, h4, h5⟩
          · simp at h4
      · simp only [hb.celld, List.mem_append, List.mem_singleton]
        constructor
        · rintro ⟨l, h3, h4⟩
          exact ⟨l, .inl h3, h4⟩
        · rintro ⟨l, h3 | rfl, h4⟩
          · exact ⟨l, h3, h4⟩
          · simp at h4
    | cells =>
      obtain ⟨s, h1, h2⟩ := augmentLine_words ws hwl b.cell
      refine ⟨_, by simp only [readLine, Line.raw, h1, Out.ok_bind]; rfl, ?_, ?_, ?_, ?_⟩
      · intro k' n
        simp only [hb.items, Asked, List.mem_append, List.mem_singleton]
        constructor
        · rintro ⟨l, h3, h4⟩
          exact ⟨l, .inl h3, h4⟩
        · rintro ⟨l, h3 | rfl, h4, h5⟩
          · exact ⟨l, h3, h4, h5⟩
          · simp at h4
      · intro k'
        simp only [hb.defd, List.mem_append, List.mem_singleton]
        constructor
        · rintro ⟨l, h3, h4⟩
          exact ⟨l, .inl h3, h4⟩
        · rintro ⟨l, h3 | rfl, h4⟩
          · exact ⟨l, h3, h4⟩
          · simp at h4
      · intro n
        simp only [h2, hb.cell, Asked, List.mem_append, List.mem_singleton]
        constructor
        · rintro (⟨l, h3, h4⟩ | h3)
          · exact ⟨l, .inl h3, h4⟩
          · exact ⟨_, .inr rfl, rfl, h3⟩
        · rintro ⟨l, h3 | rfl, h4, h5⟩
          · exact .inl ⟨l, h3, h4, h5⟩
          · exact .inr h5
      · simp only [true_iff]
        exact ⟨_, List.mem_append_right _ List.mem_cons_self, rfl⟩

theorem foldl_augmentInt (ns : List Int) : ∀ it : Item, (it.defined = true → it.numbers ≠ []) →
    ((∀ n, n ∈ (ns.foldl augmentInt it).numbers ↔ n ∈ it.numbers ∨ n ∈ ns) ∧
      ((ns.foldl augmentInt it).defined = true ↔ it.defined = true ∨ ns ≠ [])) := by
  induction ns with
  | nil => intro it _; simp
  | cons a ns ih =>
    intro it h
    have e : augmentInt it a = ⟨OSet.ins it.numbers a, true⟩ := by
      unfold augmentInt
      rw [if_neg]
      rintro ⟨h1, h2⟩
      exact h h1 h2
    have hne : OSet.ins it.numbers a ≠ [] := by
      intro h0
      have : a ∈ OSet.ins it.numbers a := (OSet.mem_ins _ _ _).mpr (.inl rfl)
      rw [h0] at this
      simp at this
    obtain ⟨h1, h2⟩ := ih (augmentInt it a) (by rw [e]; exact fun _ => hne)
    rw [List.foldl_cons]
    refine ⟨fun n => ?_, ?_⟩
    · rw [h1, e]
      simp only [OSet.mem_ins, List.mem_cons]
      tauto
    · rw [h2, e]
      simp

/-- **C99 (partial).** A `DELETE` definition whose lines all have numbers deletes exactly what the
lines ask for. Not covered: lines without numbers together with other lines, and `-all` (see
`delete_all_narrowed`). -/
theorem delete_partial {α : Type} (ls : List Line) (hw : ∀ l ∈ ls, ∀ w ∈ l.words, w.Ok)
    (hn : ∀ l ∈ ls, l.opt ≠ .all) (hne : ∀ l ∈ ls, l.words ≠ []) (p : Bin α) :
    ∃ b, read (ls.map Line.raw) = .ok b ∧
      (∀ k n, (∃ l ∈ ls, l.Asks k n) → deleteEntities b p k n = none) ∧
      (∀ k n, (¬ ∃ l ∈ ls, l.Asks k n) → deleteEntities b p k n = p k n) := by
  have h0 : After [] (⟨fun _ => ⟨[], false⟩, ⟨[], false⟩⟩ : BinList) :=
    ⟨by simp [Asked], by simp, by simp [Asked], by simp⟩
  obtain ⟨b, h1, h2⟩ := readLines_after ls hw hn [] _ h0
  rw [List.nil_append] at h2
  refine ⟨finishRead b, by simp [read, h1], ?_⟩
  -- a line with numbers selects something
  have some_of_line : ∀ o, (∃ l ∈ ls, l.opt = o) → ∃ n, Asked o ls n := by
    rintro o ⟨l, hl, ho⟩
    obtain ⟨w, hwm⟩ := List.exists_mem_of_ne_nil _ (hne l hl)
    obtain ⟨n, hs⟩ := w.sel_some
    exact ⟨n, l, hl, ho, w, hwm, hs⟩
  have itemNe : ∀ k, (b.items k).defined = true → (b.items k).numbers ≠ [] := by
    intro k hd h
    obtain ⟨n, hn⟩ := some_of_line _ ((h2.defd k).mp hd)
    have := (h2.items k n).mpr hn
    rw [h] at this
    simp at this
  have cellNe : b.cell.defined = true → b.cell.numbers ≠ [] := by
    intro hd h
    obtain ⟨n, hn⟩ := some_of_line _ (h2.celld.mp hd)
    have := (h2.cell n).mpr hn
    rw [h] at this
    simp at this
  -- the items at the end
  have fin : ∀ k, (∀ n, n ∈ ((finishRead b).items k).numbers ↔
        Asked (.kind k) ls n ∨ Asked .cells ls n) ∧
      (((finishRead b).items k).defined = true → ((finishRead b).items k).numbers ≠ []) ∧
      (((finishRead b).items k).numbers ≠ [] → ((finishRead b).items k).defined = true) := by
    intro k
    unfold finishRead
    by_cases hc : b.cell.defined = true
    · rw [if_pos hc, if_neg (cellNe hc)]
      simp only [transferAll, mem_allItems, if_true]
      obtain ⟨f1, f2⟩ := foldl_augmentInt b.cell.numbers (b.items k) (itemNe k)
      refine ⟨fun n => by rw [f1, h2.items, h2.cell], ?_, ?_⟩
      · intro _ h
        obtain ⟨m, hm⟩ := List.exists_mem_of_ne_nil _ (cellNe hc)
        have := (f1 m).mpr (.inr hm)
        rw [h] at this
        simp at this
      · intro _
        exact f2.mpr (.inr (cellNe hc))
    · rw [if_neg hc]
      have hno : ∀ n, ¬ Asked .cells ls n := by
        rintro n ⟨l, hl, ho, _⟩
        exact hc (h2.celld.mpr ⟨l, hl, ho⟩)
      refine ⟨fun n => by rw [h2.items]; simp [hno n], itemNe k, ?_⟩
      intro h
      obtain ⟨m, hm⟩ := List.exists_mem_of_ne_nil _ h
      obtain ⟨l, hl, ho, _⟩ := (h2.items k m).mp hm
      exact (h2.defd k).mpr ⟨l, hl, ho⟩
  have asks : ∀ k n, (∃ l ∈ ls, l.Asks k n) ↔ Asked (.kind k) ls n ∨ Asked .cells ls n := by
    intro k n
    constructor
    · rintro ⟨l, hl, h⟩
      have hnw := hne l hl
      have hna := hn l hl
      unfold Line.Asks at h
      cases ho : l.opt with
      | all => exact absurd ho hna
      | kind k' =>
        rw [ho] at h
        simp only [hnw, false_or] at h
        obtain ⟨rfl, h⟩ := h
        exact .inl ⟨l, hl, ho, h⟩
      | cells =>
        rw [ho] at h
        simp only [hnw, false_or] at h
        exact .inr ⟨l, hl, ho, h⟩
    · rintro (⟨l, hl, ho, h⟩ | ⟨l, hl, ho, h⟩)
      · exact ⟨l, hl, by simp only [Line.Asks, ho]; exact ⟨trivial, .inr h⟩⟩
      · exact ⟨l, hl, by simp only [Line.Asks, ho]; exact .inr h⟩
  constructor
  · intro k n h
    obtain ⟨f1, f2, f3⟩ := fin k
    have hm := (f1 n).mpr ((asks k n).mp h)
    have hne' : ((finishRead b).items k).numbers ≠ [] := by
      intro e; rw [e] at hm; simp at hm
    unfold deleteEntities
    rw [if_pos (f3 hne'), if_neg hne', if_pos hm]
  · intro k n h
    obtain ⟨f1, f2, f3⟩ := fin k
    have hm : n ∉ ((finishRead b).items k).numbers := fun hm => h ((asks k n).mpr ((f1 n).mp hm))
    unfold deleteEntities
    by_cases hd : ((finishRead b).items k).defined = true
    · rw [if_pos hd, if_neg (f2 hd), if_neg hm]
    · rw [if_neg hd]

/-- `-all` as the last line deletes everything, whatever stands before. -/
theorem delete_all {α : Type} (b b' : BinList) (h : readLine b (.all, []) = .ok b') (p : Bin α)
    (hc : b.cell.defined = false) (k : Kind) (n : Int) :
    deleteEntities (finishRead b') p k n = none := by
  simp only [readLine, Out.ok.injEq] at h
  subst h
  simp [finishRead, setAll, hc, deleteEntities, mem_allItems]

end Verif.CellList
