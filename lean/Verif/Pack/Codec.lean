import Verif.Serial.NameDouble

/-!
# Writers and readers that may leave something behind

`Carries p g P r` says that reading what `p` wrote for a value `a` gives `r a`. With `r = id`
this is `Serial.Lossless`; for the reactants `r` resets the members that are not packed.
-/

namespace Verif.Pack

open Verif.OMap Verif.Serial

/-- Reading with `g` what `p` wrote for `a` gives `r a`, whatever was written before and after. -/
def Carries {α β : Type} (p : Put α) (g : Get β) (P : α → Prop) (r : α → β) : Prop :=
  ∀ a, P a → ∀ d : Dict, d.WF →
    (p a d).1.WF ∧ d.Le (p a d).1 ∧ (d.Sendable → (p a d).1.Sendable) ∧
    ∀ d', (p a d).1.Le d' → ∀ s : Stream,
      g d' ⟨(p a d).2.1 ++ s.ints, (p a d).2.2 ++ s.dbls⟩ = .ok (r a, s)

theorem carries_of_lossless {α : Type} {p : Put α} {g : Get α} {P : α → Prop}
    (h : Lossless p g P) : Carries p g P id := h

theorem carries_int : Carries putInt getInt (fun _ => True) id := lossless_int
theorem carries_dbl : Carries putDbl getDbl (fun _ => True) id := lossless_dbl
theorem carries_bool : Carries putBool getBool (fun _ => True) id := lossless_bool
theorem carries_word : Carries putWord getWord GoodWord id := lossless_word
theorem carries_ND : Carries putND getND SendableND id := lossless_ND

theorem carries_pair {α β α' β' : Type} {pa : Put α} {ga : Get α'} {pb : Put β} {gb : Get β'}
    {P : α → Prop} {Q : β → Prop} {ra : α → α'} {rb : β → β'}
    (ha : Carries pa ga P ra) (hb : Carries pb gb Q rb) :
    Carries (putPair pa pb) (getPair ga gb) (fun x => P x.1 ∧ Q x.2)
      (fun x => (ra x.1, rb x.2)) := by
  rintro ⟨a, b⟩ ⟨hP, hQ⟩ d hd
  obtain ⟨a1, a2, a4, a3⟩ := ha a hP d hd
  obtain ⟨b1, b2, b4, b3⟩ := hb b hQ _ a1
  refine ⟨b1, a2.trans b2, b4 ∘ a4, fun d' hle s => ?_⟩
  have e1 := a3 d' (b2.trans hle)
    ⟨(pb b (pa a d).1).2.1 ++ s.ints, (pb b (pa a d).1).2.2 ++ s.dbls⟩
  have e2 := b3 d' hle s
  simp only [putPair, getPair, List.append_assoc]
  simp only at e1
  rw [e1]
  simp only
  rw [e2]

theorem carries_all {α β : Type} {pa : Put α} {ga : Get β} {P : α → Prop} {r : α → β}
    (ha : Carries pa ga P r) (l : List α) (hl : ∀ a ∈ l, P a) (d : Dict) (hd : d.WF) :
    (putAll pa l d).1.WF ∧ d.Le (putAll pa l d).1 ∧
    (d.Sendable → (putAll pa l d).1.Sendable) ∧
    ∀ d', (putAll pa l d).1.Le d' → ∀ s : Stream,
      getN ga l.length d' ⟨(putAll pa l d).2.1 ++ s.ints, (putAll pa l d).2.2 ++ s.dbls⟩ =
        .ok (l.map r, s) := by
  induction l generalizing d with
  | nil => exact ⟨hd, List.prefix_rfl, id, fun _ _ _ => rfl⟩
  | cons a l ih =>
    obtain ⟨a1, a2, a4, a3⟩ := ha a (hl a List.mem_cons_self) d hd
    obtain ⟨b1, b2, b4, b3⟩ := ih (fun x hx => hl x (List.mem_cons_of_mem _ hx)) _ a1
    refine ⟨b1, a2.trans b2, b4 ∘ a4, fun d' hle s => ?_⟩
    have e1 := a3 d' (b2.trans hle)
      ⟨(putAll pa l (pa a d).1).2.1 ++ s.ints, (putAll pa l (pa a d).1).2.2 ++ s.dbls⟩
    have e2 := b3 d' hle s
    simp only [putAll, List.length_cons, getN, List.append_assoc]
    simp only at e1
    rw [e1]
    simp only
    rw [e2]
    rfl

theorem carries_vec {α β : Type} {pa : Put α} {ga : Get β} {P : α → Prop} {r : α → β}
    (ha : Carries pa ga P r) :
    Carries (putVec pa) (getVec ga) (fun l => ∀ a ∈ l, P a) (List.map r) := by
  intro l hl d hd
  obtain ⟨b1, b2, b4, b3⟩ := carries_all ha l hl d hd
  refine ⟨b1, b2, b4, fun d' hle s => ?_⟩
  have := b3 d' hle s
  simp only [putVec, getVec, getInt, List.cons_append]
  simpa using this

theorem carries_via {α β γ δ : Type} {pb : Put β} {gb : Get γ} {Q : β → Prop} {rb : β → γ}
    {P : α → Prop} {r : α → δ} {f : α → β} {g : γ → δ} (hb : Carries pb gb Q rb)
    (hq : ∀ a, P a → Q (f a)) (hr : ∀ a, P a → g (rb (f a)) = r a) :
    Carries (putVia f pb) (getVia g gb) P r := by
  intro a hP d hd
  obtain ⟨b1, b2, b4, b3⟩ := hb (f a) (hq a hP) d hd
  refine ⟨b1, b2, b4, fun d' hle s => ?_⟩
  have := b3 d' hle s
  simp only [getVia, putVia]
  rw [this]
  simp [hr a hP]

/-! ## Maps -/

/-- `m[k] = v` for pairs read one after another into an empty map. -/
def mapOf {κ ν : Type} [LinearOrder κ] (l : List (κ × ν)) : SMap κ ν :=
  l.foldl (fun m q => OMap.insert m q.1 q.2) []

theorem insert_last {κ ν : Type} [LinearOrder κ] (m : SMap κ ν) (k : κ) (v : ν)
    (h : ∀ q ∈ m, q.1 < k) : OMap.insert m k v = m ++ [(k, v)] := by
  induction m with
  | nil => rfl
  | cons p m ih =>
    obtain ⟨a, w⟩ := p
    have ha := h _ List.mem_cons_self
    simp only [OMap.insert]
    rw [if_neg (lt_asymm ha), if_neg (ne_of_gt ha),
      ih (fun p hp => h p (List.mem_cons_of_mem _ hp))]
    rfl

theorem mapOf_sorted {κ ν : Type} [LinearOrder κ] (m : SMap κ ν) (hm : Sorted m) :
    mapOf m = m := by
  have gen : ∀ (l acc : SMap κ ν), Sorted (acc ++ l) →
      l.foldl (fun m q => OMap.insert m q.1 q.2) acc = acc ++ l := by
    intro l
    induction l with
    | nil => intro acc _; simp
    | cons p l ih =>
      intro acc h
      obtain ⟨h1, h2, h3⟩ := List.pairwise_append.mp h
      simp only [List.foldl_cons]
      rw [insert_last acc p.1 p.2 (fun q hq => h3 q hq p List.mem_cons_self)]
      have := ih (acc ++ [p]) (by simpa using h)
      simpa using this
  exact gen m [] (by simpa using hm)

/-- `int` keyed maps of numbers, `std::map<int, double>`: the number of entries, then key and
value of each (Solution.cxx:1641-1649, SurfaceCharge.cxx:524-532). -/
def putIntMap : Put (SMap Int ℚ) := putVec (putPair putInt putDbl)

/-- Solution.cxx:1730-1737, SurfaceCharge.cxx:565-574. -/
def getIntMap : Get (SMap Int ℚ) := getVia mapOf (getVec (getPair getInt getDbl))

theorem carries_intMap : Carries putIntMap getIntMap Sorted id := by
  refine carries_via (f := id) (g := mapOf)
    (carries_vec (carries_pair carries_int carries_dbl)) ?_ ?_
  · intro a _ x _; exact ⟨trivial, trivial⟩
  · intro a ha
    have e : (List.map (fun x : Int × ℚ => ((id x.1 : Int), (id x.2 : ℚ))) a) = a := by simp
    simp only [id_eq] at e ⊢
    rw [e, mapOf_sorted a ha]

theorem map_id_pair {α β : Type} (l : List (α × β)) :
    List.map (fun x => (id x.1, id x.2)) l = l := by simp

end Verif.Pack
