import Verif.Serial.Codec
import Verif.NameDouble.Model

/-!
# Serialisation of named values (C46)

Model of `cxxNameDouble::Serialize` and `Deserialize`.
-/

namespace Verif.Serial

open Verif.OMap Verif.NameDouble

/-- `cxxNameDouble::Serialize` (NameDouble.cxx:510-521). -/
def putND : Put ND := putVec (putPair putWord putDbl)

/-- Body of the loop in `Deserialize` (NameDouble.cxx:529-535): an empty word reads no value. -/
def getEntry : Get (Option (Name × ℚ)) := fun d s =>
  match getWord d s with
  | .ok (w, s') =>
    if w.length ≠ 0 then
      match getDbl d s' with
      | .ok (x, s'') => .ok (some (w, x), s'')
      | .throw => .throw
      | .ub => .ub
    else .ok (none, s')
  | .throw => .throw
  | .ub => .ub

/-- `(*this)[str] = x` for the entries read (NameDouble.cxx:534). -/
def insertAll (l : List (Option (Name × ℚ))) : ND :=
  l.foldl (fun m e => match e with
    | some p => OMap.insert m p.1 p.2
    | none   => m) []

/-- `cxxNameDouble::Deserialize` (NameDouble.cxx:522-537). -/
def getND : Get ND := getVia insertAll (getVec getEntry)

theorem insert_snoc (m : ND) (k : Name) (v : ℚ) (h : ∀ p ∈ m, p.1 < k) :
    OMap.insert m k v = m ++ [(k, v)] := by
  induction m with
  | nil => rfl
  | cons p m ih =>
    obtain ⟨a, w⟩ := p
    have ha := h _ List.mem_cons_self
    simp only [OMap.insert]
    rw [if_neg (lt_asymm ha), if_neg (ne_of_gt ha),
      ih (fun p hp => h p (List.mem_cons_of_mem _ hp))]
    rfl

theorem insertAll_sorted (m : ND) (hm : Sorted m) : insertAll (m.map some) = m := by
  have gen : ∀ (l acc : ND), Sorted (acc ++ l) →
      (l.map some).foldl (fun m e => match e with
        | some p => OMap.insert m p.1 p.2
        | none   => m) acc = acc ++ l := by
    intro l
    induction l with
    | nil => intro acc _; simp
    | cons p l ih =>
      intro acc h
      obtain ⟨h1, h2, h3⟩ := List.pairwise_append.mp h
      simp only [List.map_cons, List.foldl_cons]
      rw [insert_snoc acc p.1 p.2 (fun q hq => h3 q hq p List.mem_cons_self)]
      have := ih (acc ++ [p]) (by simpa using h)
      simpa using this
  have := gen m [] (by simpa using hm)
  exact this

/-- Name lists that can be serialised: a proper map, no empty name, every name fits a line. -/
def SendableND (m : ND) : Prop := Sorted m ∧ ∀ p ∈ m, p.1 ≠ [] ∧ GoodWord p.1

theorem lossless_entry : Lossless (putVia (fun o : Option (Name × ℚ) => o.getD ([], 0))
    (putPair putWord putDbl)) getEntry (fun o => ∃ p, o = some p ∧ p.1 ≠ [] ∧ GoodWord p.1) := by
  rintro o ⟨⟨w, x⟩, rfl, hne, hw⟩ d hd
  obtain ⟨b1, b2, b4, b3⟩ := lossless_pair lossless_word lossless_dbl (w, x) ⟨hw, trivial⟩ d hd
  refine ⟨b1, b2, b4, fun d' hle s => ?_⟩
  have := b3 d' hle s
  simp only [putVia, Option.getD_some]
  simp only [getPair] at this
  simp only [getEntry]
  generalize getWord d' _ = g at this ⊢
  match g, this with
  | .ok (a, s1), this =>
    simp only at this ⊢
    generalize hg : getDbl d' s1 = g2 at this
    match g2, this with
    | .ok (b, s2), this =>
      simp only [Out.ok.injEq, Prod.mk.injEq] at this
      obtain ⟨⟨rfl, rfl⟩, rfl⟩ := this
      have : a.length ≠ 0 := by simpa using hne
      rw [if_pos this]

theorem putAll_map (l : ND) (d : Dict) :
    putAll (putVia (fun o : Option (Name × ℚ) => o.getD ([], 0)) (putPair putWord putDbl))
      (l.map some) d = putAll (putPair putWord putDbl) l d := by
  induction l generalizing d with
  | nil => rfl
  | cons p l ih =>
    simp only [List.map_cons, putAll]
    rw [ih]
    rfl

/-- Serialising a name list and reading it back gives the same list, in any surrounding
stream. -/
theorem lossless_ND : Lossless putND getND SendableND := by
  intro m hm d hd
  have h := lossless_vec lossless_entry (m.map some)
    (by
      intro o ho
      obtain ⟨p, hp, rfl⟩ := List.mem_map.mp ho
      exact ⟨p, rfl, hm.2 p hp⟩) d hd
  simp only [putVec, putAll_map, List.length_map] at h
  obtain ⟨b1, b2, b4, b3⟩ := h
  refine ⟨b1, b2, b4, fun d' hle s => ?_⟩
  have := b3 d' hle s
  simp only [getND, getVia, putND, putVec]
  rw [this]
  simp [insertAll_sorted m hm.1]

/-- C46. Any number of name lists serialised with one shared dictionary, with the dictionary
sent as text, are read back unchanged, and both vectors are used up exactly. -/
theorem nameLists_roundTrip (l : List ND) (h : ∀ m ∈ l, SendableND m) :
    let w := putVec putND l Dict.empty
    getVec getND (Dict.ofText w.1.text) ⟨w.2.1, w.2.2⟩ = .ok (l, ⟨[], []⟩) :=
  lossless_sent (lossless_vec lossless_ND) l h

example : ∀ m ∈ ([[("C".toList, 1), ("Ca".toList, 2)], [], [("C".toList, 3)]] : List ND),
    SendableND m := by
  have good : ∀ w : List Char, w ∈ ["C".toList, "Ca".toList] → w ≠ [] ∧ GoodWord w := by
    intro w hw
    simp only [List.mem_cons, List.not_mem_nil, or_false] at hw
    rcases hw with rfl | rfl <;> exact ⟨by decide, by decide, by decide, by decide⟩
  have hlt : "C".toList < "Ca".toList := by decide
  intro m hm
  simp only [List.mem_cons, List.not_mem_nil, or_false] at hm
  rcases hm with rfl | rfl | rfl
  · refine ⟨?_, fun p hp => good p.1 ?_⟩
    · simp only [Sorted, List.pairwise_cons, List.mem_singleton, forall_eq, List.not_mem_nil,
        false_imp_iff, implies_true, List.Pairwise.nil, and_self, and_true]
      exact hlt
    · simp only [List.mem_cons, List.not_mem_nil, or_false] at hp
      rcases hp with rfl | rfl <;> simp
  · exact ⟨by simp [Sorted], by simp⟩
  · refine ⟨by simp [Sorted], fun p hp => good p.1 ?_⟩
    simp only [List.mem_singleton] at hp
    subst hp; simp

/-- Names must not be empty: an empty name's value is left unread, so the following list gets
it. -/
theorem emptyName_shifts_values :
    ∃ l : List ND, (∀ m ∈ l, Sorted m ∧ ∀ p ∈ m, GoodWord p.1) ∧
      (let w := putVec putND l Dict.empty
       getVec getND (Dict.ofText w.1.text) ⟨w.2.1, w.2.2⟩) =
        .ok ([[], [("C".toList, 7)]], ⟨[], [8]⟩) ∧
      l = [[([], 7)], [("C".toList, 8)]] := by
  refine ⟨_, ?_, ?_, rfl⟩
  · intro m hm
    simp only [List.mem_cons, List.not_mem_nil, or_false] at hm
    rcases hm with rfl | rfl
    · refine ⟨by simp [Sorted], ?_⟩
      intro p hp
      simp only [List.mem_singleton] at hp
      subst hp
      exact ⟨by decide, by decide, by decide⟩
    · refine ⟨by simp [Sorted], ?_⟩
      intro p hp
      simp only [List.mem_singleton] at hp
      subst hp
      exact ⟨by decide, by decide, by decide⟩
  · rfl

end Verif.Serial
