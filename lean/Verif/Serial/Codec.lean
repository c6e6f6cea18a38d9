import Verif.Serial.Dict
import Mathlib.Algebra.Order.Field.Rat

/-!
# Writing to and reading from the integer and double streams

The packing code (`Serializer.cxx` and the `Serialize`/`Deserialize` methods) appends to
`std::vector<int> ints` and `std::vector<double> doubles` and reads them back with two
positions. A writer is given the dictionary and returns what it appends. A reader is given the
dictionary and the unread rest of both vectors; reading past the end is undefined behaviour.
-/

namespace Verif.Serial

/-- The unread rest of the two vectors. -/
structure Stream where
  ints : List Int
  dbls : List ℚ
deriving DecidableEq

/-- Appends to the two vectors and to the dictionary. -/
abbrev Put (α : Type) := α → Dict → Dict × List Int × List ℚ

/-- Reads from the two vectors. -/
abbrev Get (α : Type) := Dict → Stream → Out (α × Stream)

/-- `ints.push_back(i)`. -/
def putInt : Put Int := fun i d => (d, [i], [])

/-- `ints[ii++]`. -/
def getInt : Get Int := fun _ s =>
  match s.ints with
  | i :: r => .ok (i, { s with ints := r })
  | []     => .ub

/-- `doubles.push_back(x)`. -/
def putDbl : Put ℚ := fun x d => (d, [], [x])

/-- `doubles[dd++]`. -/
def getDbl : Get ℚ := fun _ s =>
  match s.dbls with
  | x :: r => .ok (x, { s with dbls := r })
  | []     => .ub

/-- `ints.push_back(b ? 1 : 0)`. -/
def putBool : Put Bool := fun b d => (d, [if b then 1 else 0], [])

/-- `b = (ints[ii++] != 0)`. -/
def getBool : Get Bool := fun d s =>
  match getInt d s with
  | .ok (i, s') => .ok (decide (i ≠ 0), s')
  | .throw => .throw
  | .ub => .ub

/-- `ints.push_back(dictionary.Find(w))`. -/
def putWord : Put (List Char) := fun w d => ((d.find w).1, [((d.find w).2 : Int)], [])

/-- `dictionary.GetWords()[ints[ii++]]`. -/
def getWord : Get (List Char) := fun d s =>
  match getInt d s with
  | .ok (i, s') =>
    if i < 0 then .ub
    else match d.words[i.toNat]? with
      | some w => .ok (w, s')
      | none   => .ub
  | .throw => .throw
  | .ub => .ub

/-- One write after another. -/
def putPair {α β : Type} (pa : Put α) (pb : Put β) : Put (α × β) := fun x d =>
  let a := pa x.1 d
  let b := pb x.2 a.1
  (b.1, a.2.1 ++ b.2.1, a.2.2 ++ b.2.2)

/-- One read after another. -/
def getPair {α β : Type} (ga : Get α) (gb : Get β) : Get (α × β) := fun d s =>
  match ga d s with
  | .ok (a, s') =>
    match gb d s' with
    | .ok (b, s'') => .ok ((a, b), s'')
    | .throw => .throw
    | .ub => .ub
  | .throw => .throw
  | .ub => .ub

/-- The elements of a list one after another. -/
def putAll {α : Type} (pa : Put α) : Put (List α)
  | [], d => (d, [], [])
  | a :: l, d =>
    let x := pa a d
    let y := putAll pa l x.1
    (y.1, x.2.1 ++ y.2.1, x.2.2 ++ y.2.2)

/-- `n` elements one after another. -/
def getN {α : Type} (ga : Get α) : Nat → Get (List α)
  | 0, _, s => .ok ([], s)
  | n + 1, d, s =>
    match ga d s with
    | .ok (a, s') =>
      match getN ga n d s' with
      | .ok (l, s'') => .ok (a :: l, s'')
      | .throw => .throw
      | .ub => .ub
    | .throw => .throw
    | .ub => .ub

/-- `ints.push_back((int) v.size())` followed by the elements. -/
def putVec {α : Type} (pa : Put α) : Put (List α) := fun l d =>
  let y := putAll pa l d
  (y.1, (l.length : Int) :: y.2.1, y.2.2)

/-- `int count = ints[ii++]; for (j = 0; j < count; j++) ...`. -/
def getVec {α : Type} (ga : Get α) : Get (List α) := fun d s =>
  match getInt d s with
  | .ok (n, s') => getN ga n.toNat d s'
  | .throw => .throw
  | .ub => .ub

/-- Change of representation on the writing side. -/
def putVia {α β : Type} (f : α → β) (pb : Put β) : Put α := fun a d => pb (f a) d

/-- Change of representation on the reading side. -/
def getVia {α β : Type} (g : β → α) (gb : Get β) : Get α := fun d s =>
  match gb d s with
  | .ok (b, s') => .ok (g b, s')
  | .throw => .throw
  | .ub => .ub

/-- The reader `g` undoes the writer `p` on values satisfying `P`, whatever was written before
and after, in the dictionary as it is at the end of the writing. The words added can be sent as
text. -/
def Lossless {α : Type} (p : Put α) (g : Get α) (P : α → Prop) : Prop :=
  ∀ a, P a → ∀ d : Dict, d.WF →
    (p a d).1.WF ∧ d.Le (p a d).1 ∧ (d.Sendable → (p a d).1.Sendable) ∧
    ∀ d', (p a d).1.Le d' → ∀ s : Stream,
      g d' ⟨(p a d).2.1 ++ s.ints, (p a d).2.2 ++ s.dbls⟩ = .ok (a, s)

theorem lossless_int : Lossless putInt getInt (fun _ => True) :=
  fun _ _ _ hd => ⟨hd, List.prefix_rfl, id, fun _ _ _ => rfl⟩

theorem lossless_dbl : Lossless putDbl getDbl (fun _ => True) :=
  fun _ _ _ hd => ⟨hd, List.prefix_rfl, id, fun _ _ _ => rfl⟩

theorem lossless_bool : Lossless putBool getBool (fun _ => True) :=
  fun b _ _ hd => ⟨hd, List.prefix_rfl, id, fun _ _ _ => by cases b <;> rfl⟩

theorem lossless_word : Lossless putWord getWord GoodWord := by
  intro w hw d hd
  obtain ⟨h1, h2, h3, h4⟩ := Dict.find_spec hd w
  refine ⟨h1, h2, fun hs u hu => ?_, fun d' hle s => ?_⟩
  · simp only [putWord] at hu
    rw [h4] at hu
    split at hu
    · exact hs u hu
    · rcases List.mem_append.mp hu with hu | hu
      · exact hs u hu
      · simp only [List.mem_singleton] at hu; exact hu ▸ hw
  have : d'.words[(d.find w).2]? = some w := by
    obtain ⟨t, ht⟩ := hle
    simp only [putWord] at ht
    rw [← ht, List.getElem?_append]
    have hlt : (d.find w).2 < (d.find w).1.words.length := by
      obtain ⟨h, _⟩ := List.getElem?_eq_some_iff.mp h3
      exact h
    rw [if_pos hlt]; exact h3
  simp only [putWord, getWord, getInt, List.cons_append, List.nil_append]
  rw [if_neg (by omega)]
  simp [this]

theorem lossless_pair {α β : Type} {pa : Put α} {ga : Get α} {pb : Put β} {gb : Get β}
    {P : α → Prop} {Q : β → Prop} (ha : Lossless pa ga P) (hb : Lossless pb gb Q) :
    Lossless (putPair pa pb) (getPair ga gb) (fun x => P x.1 ∧ Q x.2) := by
  rintro ⟨a, b⟩ ⟨hP, hQ⟩ d hd
  obtain ⟨a1, a2, a4, a3⟩ := ha a hP d hd
  obtain ⟨b1, b2, b4, b3⟩ := hb b hQ _ a1
  refine ⟨b1, a2.trans b2, b4 ∘ a4, fun d' hle s => ?_⟩
  have e1 := a3 d' (b2.trans hle)
    ⟨(pb b (pa a d).1).2.1 ++ s.ints, (pb b (pa a d).1).2.2 ++ s.dbls⟩
  have e2 := b3 d' hle s
  simp only [putPair, getPair, List.append_assoc]
  simp only at e1
  rw [e1]
  simp only
  rw [e2]

theorem lossless_all {α : Type} {pa : Put α} {ga : Get α} {P : α → Prop}
    (ha : Lossless pa ga P) (l : List α) (hl : ∀ a ∈ l, P a) (d : Dict) (hd : d.WF) :
    (putAll pa l d).1.WF ∧ d.Le (putAll pa l d).1 ∧
    (d.Sendable → (putAll pa l d).1.Sendable) ∧
    ∀ d', (putAll pa l d).1.Le d' → ∀ s : Stream,
      getN ga l.length d' ⟨(putAll pa l d).2.1 ++ s.ints, (putAll pa l d).2.2 ++ s.dbls⟩ =
        .ok (l, s) := by
  induction l generalizing d with
  | nil => exact ⟨hd, List.prefix_rfl, id, fun _ _ _ => rfl⟩
  | cons a l ih =>
    obtain ⟨a1, a2, a4, a3⟩ := ha a (hl a List.mem_cons_self) d hd
    obtain ⟨b1, b2, b4, b3⟩ := ih (fun x hx => hl x (List.mem_cons_of_mem _ hx)) _ a1
    refine ⟨b1, a2.trans b2, b4 ∘ a4, fun d' hle s => ?_⟩
    have e1 := a3 d' (b2.trans hle)
      ⟨(putAll pa l (pa a d).1).2.1 ++ s.ints, (putAll pa l (pa a d).1).2.2 ++ s.dbls⟩
    have e2 := b3 d' hle s
    simp only [putAll, List.length_cons, getN, List.append_assoc]
    simp only at e1
    rw [e1]
    simp only
    rw [e2]

theorem lossless_vec {α : Type} {pa : Put α} {ga : Get α} {P : α → Prop}
    (ha : Lossless pa ga P) : Lossless (putVec pa) (getVec ga) (fun l => ∀ a ∈ l, P a) := by
  intro l hl d hd
  obtain ⟨b1, b2, b4, b3⟩ := lossless_all ha l hl d hd
  refine ⟨b1, b2, b4, fun d' hle s => ?_⟩
  have := b3 d' hle s
  simp only [putVec, getVec, getInt, List.cons_append]
  simpa using this

theorem lossless_via {α β : Type} {pb : Put β} {gb : Get β} {Q : β → Prop} {P : α → Prop}
    (f : α → β) (g : β → α) (hb : Lossless pb gb Q) (hq : ∀ a, P a → Q (f a))
    (hfg : ∀ a, P a → g (f a) = a) : Lossless (putVia f pb) (getVia g gb) P := by
  intro a hP d hd
  obtain ⟨b1, b2, b4, b3⟩ := hb (f a) (hq a hP) d hd
  refine ⟨b1, b2, b4, fun d' hle s => ?_⟩
  have := b3 d' hle s
  simp only [getVia, putVia]
  rw [this]
  simp [hfg a hP]

theorem lossless_mono {α : Type} {p : Put α} {g : Get α} {P Q : α → Prop}
    (h : Lossless p g P) (hpq : ∀ a, Q a → P a) : Lossless p g Q :=
  fun a ha d hd => h a (hpq a ha) d hd

/-- Writing into an empty dictionary, sending the dictionary as text and the two vectors, and
reading with the dictionary rebuilt from the text gives the value back and consumes both
vectors exactly. -/
theorem lossless_sent {α : Type} {p : Put α} {g : Get α} {P : α → Prop}
    (h : Lossless p g P) (a : α) (ha : P a) :
    g (Dict.ofText (p a Dict.empty).1.text)
      ⟨(p a Dict.empty).2.1, (p a Dict.empty).2.2⟩ = .ok (a, ⟨[], []⟩) := by
  obtain ⟨h1, _, h3, h4⟩ := h a ha Dict.empty Dict.wf_empty
  have hs := h3 (by intro w hw; simp [Dict.empty] at hw)
  obtain ⟨_, hw⟩ := Dict.ofText_words h1 hs
  have := h4 (Dict.ofText (p a Dict.empty).1.text)
    (by unfold Dict.Le; rw [hw]; exact List.prefix_rfl) ⟨[], []⟩
  simpa using this

end Verif.Serial
