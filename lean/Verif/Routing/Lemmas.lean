import Verif.Routing.Model

/-! # Lemmas about the loop over the instances -/

namespace Verif.Routing

open Verif.Setters

variable {σ : Type}

/-- The turn of instance `n`, if it is run. -/
def turnOf (sel : Nat → Bool) (th : Nat → Inst σ → Turn σ) (insts : List (Inst σ)) (n : Nat) :
    Option (Turn σ) :=
  if sel n then (insts[n]?).map (th n) else none

/-- What a loop over `order` leaves behind. -/
structure After (sel : Nat → Bool) (th : Nat → Inst σ → Turn σ) (order : List Nat)
    (l r : Loop σ) : Prop where
  insts : ∀ n, r.insts[n]? =
    if n ∈ order ∧ sel n = true then (turnOf sel th l.insts n).map Turn.inst else l.insts[n]?
  codes : ∀ n, n < l.insts.length → n < l.codes.length → r.codes[n]? =
    if n ∈ order ∧ sel n = true then (turnOf sel th l.insts n).map Turn.code else l.codes[n]?
  instsLen : r.insts.length = l.insts.length
  codesLen : r.codes.length = l.codes.length
  err : r.err = l.err ++ order.flatMap (fun n => ((turnOf sel th l.insts n).map Turn.err).getD [])
  out : r.out = l.out ++ order.flatMap (fun n => ((turnOf sel th l.insts n).map Turn.out).getD [])
  printed : r.printed = l.printed ++
    order.filter (fun n => ((turnOf sel th l.insts n).map Turn.out).getD [] ≠ [])

theorem turn_unselected {sel : Nat → Bool} {th : Nat → Inst σ → Turn σ} {l : Loop σ} {n : Nat}
    (h : sel n = false) : turn sel th l n = .ok l := by
  unfold turn
  rw [if_neg (by simp [h])]

theorem foldlM_after (sel : Nat → Bool) (th : Nat → Inst σ → Turn σ) (order : List Nat)
    (hnd : order.Nodup) (l : Loop σ) (hlt : ∀ n ∈ order, n < l.insts.length) :
    ∃ r, order.foldlM (turn sel th) l = .ok r ∧ After sel th order l r := by
  induction order generalizing l with
  | nil =>
    exact ⟨l, rfl, by constructor <;> simp⟩
  | cons m ms ih =>
    obtain ⟨hm, hnd⟩ := List.nodup_cons.mp hnd
    rw [List.foldlM_cons]
    cases hs : sel m with
    | false =>
      rw [turn_unselected hs, Out.ok_bind]
      obtain ⟨r, h1, h2⟩ := ih hnd l (fun n hn => hlt n (List.mem_cons_of_mem _ hn))
      have ht : turnOf sel th l.insts m = none := by simp [turnOf, hs]
      have hmem : ∀ n, (n ∈ m :: ms ∧ sel n = true) ↔ (n ∈ ms ∧ sel n = true) := by
        intro n
        constructor
        · rintro ⟨h, h'⟩
          rcases List.mem_cons.mp h with rfl | h
          · rw [hs] at h'; cases h'
          · exact ⟨h, h'⟩
        · exact fun ⟨h, h'⟩ => ⟨List.mem_cons_of_mem _ h, h'⟩
      refine ⟨r, h1, ⟨?_, ?_, h2.instsLen, h2.codesLen, ?_, ?_, ?_⟩⟩
      · intro n; rw [h2.insts n]; simp only [hmem n]
      · intro n h h'; rw [h2.codes n h h']; simp only [hmem n]
      · rw [h2.err]; simp [ht]
      · rw [h2.out]; simp [ht]
      · rw [h2.printed]; simp [ht]
    | true =>
      have hl := hlt m List.mem_cons_self
      have hi : l.insts[m]? = some l.insts[m] := List.getElem?_eq_getElem hl
      generalize l.insts[m] = i at hi
      have ht : turnOf sel th l.insts m = some (th m i) := by simp [turnOf, hs, hi]
      have hstep : turn sel th l m = .ok
          { insts := l.insts.set m (th m i).inst, codes := l.codes.set m (th m i).code
            err := l.err ++ (th m i).err, out := l.out ++ (th m i).out
            printed := if (th m i).out = [] then l.printed else l.printed ++ [m] } := by
        unfold turn
        rw [if_pos hs, hi]
      rw [hstep, Out.ok_bind]
      obtain ⟨r, h1, h2⟩ := ih hnd
        { insts := l.insts.set m (th m i).inst, codes := l.codes.set m (th m i).code
          err := l.err ++ (th m i).err, out := l.out ++ (th m i).out
          printed := if (th m i).out = [] then l.printed else l.printed ++ [m] }
        (by
          intro n hn
          simpa using hlt n (List.mem_cons_of_mem _ hn))
      have hsame : ∀ n ∈ ms, turnOf sel th (l.insts.set m (th m i).inst) n =
          turnOf sel th l.insts n := by
        intro n hn
        have : m ≠ n := fun h => hm (h ▸ hn)
        simp [turnOf, List.getElem?_set_ne this]
      have hflat : ∀ {β : Type} (f : Turn σ → List β),
          ms.flatMap (fun n => ((turnOf sel th (l.insts.set m (th m i).inst) n).map f).getD []) =
          ms.flatMap (fun n => ((turnOf sel th l.insts n).map f).getD []) := by
        intro β f
        refine List.flatMap_congr ?_
        intro n hn
        rw [hsame n hn]
      refine ⟨r, h1, ⟨?_, ?_, ?_, ?_, ?_, ?_, ?_⟩⟩
      · intro n
        rw [h2.insts n]
        dsimp only
        by_cases hn : n = m
        · subst hn
          rw [if_neg (by simp [hm]), if_pos ⟨List.mem_cons_self, hs⟩, ht]
          simp [hl]
        · by_cases hmem : n ∈ ms ∧ sel n = true
          · rw [if_pos hmem, if_pos ⟨List.mem_cons_of_mem _ hmem.1, hmem.2⟩, hsame n hmem.1]
          · rw [if_neg hmem, if_neg (by
              rintro ⟨h, h'⟩
              rcases List.mem_cons.mp h with h | h
              · exact hn h
              · exact hmem ⟨h, h'⟩), List.getElem?_set_ne (fun h => hn h.symm)]
      · intro n hlen hlen'
        rw [h2.codes n (by simpa using hlen) (by simpa using hlen')]
        dsimp only
        by_cases hn : n = m
        · subst hn
          rw [if_neg (by simp [hm]), if_pos ⟨List.mem_cons_self, hs⟩, ht]
          simp [hlen']
        · by_cases hmem : n ∈ ms ∧ sel n = true
          · rw [if_pos hmem, if_pos ⟨List.mem_cons_of_mem _ hmem.1, hmem.2⟩, hsame n hmem.1]
          · rw [if_neg hmem, if_neg (by
              rintro ⟨h, h'⟩
              rcases List.mem_cons.mp h with h | h
              · exact hn h
              · exact hmem ⟨h, h'⟩), List.getElem?_set_ne (fun h => hn h.symm)]
      · rw [h2.instsLen]; simp
      · rw [h2.codesLen]; simp
      · rw [h2.err, hflat]; simp [ht]
      · rw [h2.out, hflat]; simp [ht]
      · rw [h2.printed]
        have hf : ms.filter (fun n => decide
            (((turnOf sel th (l.insts.set m (th m i).inst) n).map Turn.out).getD [] ≠ [])) =
            ms.filter (fun n => decide (((turnOf sel th l.insts n).map Turn.out).getD [] ≠ [])) := by
          refine List.filter_congr ?_
          intro n hn
          rw [hsame n hn]
        dsimp only
        rw [hf]
        by_cases ho : (th m i).out = []
        · simp [ht, ho]
        · simp [ht, ho]

/-- The messages of `HandleErrorsInternal`: those of the instances with a code other than 0. -/
theorem errorMessages_ok (eng : Engine σ) (insts : List (Inst σ)) (codes : List Int) (k : Nat)
    (hlen : k + codes.length ≤ insts.length) :
    ∃ msgs, errorMessages eng insts k codes = .ok msgs ∧
      (∀ t, t ∈ msgs ↔ ∃ n c i, codes[n]? = some c ∧ c ≠ 0 ∧ insts[k + n]? = some i ∧
        t = eng.errorString i.chem) := by
  induction codes generalizing k with
  | nil => exact ⟨[], rfl, by simp⟩
  | cons c cs ih =>
    simp only [List.length_cons] at hlen
    obtain ⟨msgs, h1, h2⟩ := ih (k + 1) (by omega)
    by_cases hc : c = 0
    · refine ⟨msgs, by rw [errorMessages, if_neg (by simp [hc]), h1], ?_⟩
      intro t
      rw [h2]
      constructor
      · rintro ⟨n, c', i, hn, h0, hi, rfl⟩
        exact ⟨n + 1, c', i, by simpa using hn, h0, by rw [← hi]; congr 1; omega, rfl⟩
      · rintro ⟨n, c', i, hn, h0, hi, rfl⟩
        cases n with
        | zero =>
          simp only [List.getElem?_cons_zero, Option.some.injEq] at hn
          exact absurd (hn ▸ hc) h0
        | succ n => exact ⟨n, c', i, by simpa using hn, h0, by rw [← hi]; congr 1; omega, rfl⟩
    · have hk : k < insts.length := by omega
      have hi : insts[k]? = some insts[k] := List.getElem?_eq_getElem hk
      generalize insts[k] = i0 at hi
      refine ⟨eng.errorString i0.chem :: msgs, ?_, ?_⟩
      · rw [errorMessages, if_pos hc, hi]
        simp only [h1, Out.ok_bind]
      · intro t
        rw [List.mem_cons, h2]
        constructor
        · rintro (rfl | ⟨n, c', i, hn, h0, hi', rfl⟩)
          · exact ⟨0, c, i0, rfl, hc, hi, rfl⟩
          · exact ⟨n + 1, c', i, by simpa using hn, h0, by rw [← hi']; congr 1; omega, rfl⟩
        · rintro ⟨n, c', i, hn, h0, hi', rfl⟩
          cases n with
          | zero =>
            left
            rw [Nat.add_zero, hi, Option.some.injEq] at hi'
            rw [hi']
          | succ n => exact Or.inr ⟨n, c', i, by simpa using hn, h0, by rw [← hi']; congr 1; omega, rfl⟩

end Verif.Routing
