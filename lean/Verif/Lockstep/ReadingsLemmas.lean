import Verif.Lockstep.Violations

/-!
# Lemmas: values of cells that the root gathers from the processes
-/

namespace Verif.Lockstep

open Spec

variable {n : Nat} {χ α : Type} {E : Engine χ}

theorem length_setAll (l : List Nat) (v : ℚ) (d : List ℚ) :
    (l.foldl (fun d i => d.set i v) d).length = d.length := by
  induction l generalizing d with
  | nil => rfl
  | cons a l ih => rw [List.foldl_cons, ih, List.length_set]

theorem setAll_other {l : List Nat} {i : Nat} (hi : i ∉ l) (v : ℚ) (d : List ℚ) :
    (l.foldl (fun d i => d.set i v) d)[i]? = d[i]? := by
  induction l generalizing d with
  | nil => rfl
  | cons a l ih =>
    rw [List.mem_cons, not_or] at hi
    rw [List.foldl_cons, ih hi.2, List.getElem?_set_ne (Ne.symm hi.1)]

theorem setAll_mem {l : List Nat} {i : Nat} (hi : i ∈ l) (v : ℚ) (d : List ℚ) (hd : i < d.length) :
    (l.foldl (fun d i => d.set i v) d)[i]? = some v := by
  induction l generalizing d with
  | nil => cases hi
  | cons a l ih =>
    rw [List.foldl_cons]
    by_cases hl : i ∈ l
    · exact ih hl _ (by rw [List.length_set]; exact hd)
    · rw [setAll_other hl]
      rcases List.mem_cons.1 hi with rfl | h
      · rw [List.getElem?_set_self hd]
      · exact absurd h hl

theorem spread_cons (b : List Nat) (back : List (List Nat)) (v : ℚ) (vals old : List ℚ) :
    spread (b :: back) (v :: vals) old = spread back vals (b.foldl (fun d i => d.set i v) old) := rfl

theorem spread_other {back : List (List Nat)} {i : Nat} (hi : i ∉ back.flatten) (vals old : List ℚ) :
    (spread back vals old)[i]? = old[i]? := by
  induction back generalizing vals old with
  | nil => rfl
  | cons b back ih =>
    cases vals with
    | nil => rfl
    | cons v vals =>
      rw [List.flatten_cons, List.mem_append, not_or] at hi
      rw [spread_cons, ih hi.2, setAll_other hi.1]

theorem spread_at {back : List (List Nat)} (hnd : back.flatten.Nodup) {c i : Nat} {b : List Nat} {v : ℚ}
    {vals old : List ℚ} (hb : back[c]? = some b) (hv : vals[c]? = some v) (hi : i ∈ b) (hl : i < old.length) :
    (spread back vals old)[i]? = some v := by
  induction back generalizing vals old c with
  | nil => cases hb
  | cons b0 back ih =>
    cases vals with
    | nil => cases hv
    | cons v0 vals =>
      rw [spread_cons]
      rw [List.flatten_cons, List.nodup_append] at hnd
      cases c with
      | zero =>
        cases hb; cases hv
        rw [spread_other (fun h => hnd.2.2 i hi i h rfl), setAll_mem hi _ _ hl]
      | succ c =>
        exact ih hnd.2.1 hb hv (by rw [length_setAll]; exact hl)

theorem flatten_at {L : List (List α)} {p l : Nat} {m : List α} {x : α} (hp : L[p]? = some m)
    (hl : m[l]? = some x) : L.flatten[((L.map List.length).take p).sum + l]? = some x := by
  induction L generalizing p with
  | nil => cases hp
  | cons m0 L ih =>
    cases p with
    | zero =>
      cases hp
      obtain ⟨h, rfl⟩ := List.getElem?_eq_some_iff.1 hl
      rw [List.flatten_cons, List.take_zero, List.sum_nil, Nat.zero_add, List.getElem?_append_left h]
      exact hl
    | succ p =>
      rw [List.flatten_cons, List.map_cons, List.take_succ_cons, List.sum_cons, Nat.add_assoc,
        List.getElem?_append_right (Nat.le_add_right _ _), Nat.add_sub_cancel_left]
      exact ih hp

theorem readOut_at {s : Nat → St χ} (h : Lay n s) (rr : Nat → Reading)
    (hg : ∀ b ∈ (s 0).sh.back, ∀ i ∈ b, i < (s 0).sh.nxyz) (hnd : (s 0).sh.back.flatten.Nodup)
    {c i p : Nat} {b : List Nat} (hb : (s 0).sh.back[c]? = some b) (hi : i ∈ b) (hp : p < n)
    (h1 : ((s 0).sh.cells.take p).sum ≤ c) (h2 : c < ((s 0).sh.cells.take p).sum + (s 0).sh.cells.getD p 0) :
    (readOut E n rr s)[i]? = some (E.reading p (s p) (rr p) c) := by
  have hlen : ∀ q, (E.mine q (rr q) (s q)).length = (s q).sh.cells.getD q 0 := by
    intro q
    unfold Engine.mine
    rw [List.length_map, List.length_range]; rfl
  have hmap : ((List.range n).map (fun p => E.mine p (rr p) (s p))).map List.length = (s 0).sh.cells := by
    apply List.ext_getElem
    · rw [List.length_map, List.length_map, List.length_range, h.divides.1]
    · intro q hq1 hq2
      rw [List.getElem_map, List.getElem_map, List.getElem_range, hlen, h.agree q (by rw [← h.divides.1]; exact hq2),
        List.getD_eq_getElem?_getD, List.getElem?_eq_getElem hq2]
      rfl
  refine spread_at hnd hb (v := E.reading p (s p) (rr p) c) ?_ hi ?_
  · have hpm : ((List.range n).map (fun p => E.mine p (rr p) (s p)))[p]? = some (E.mine p (rr p) (s p)) := by
      rw [List.getElem?_map, List.getElem?_range hp]; rfl
    have hx : (E.mine p (rr p) (s p))[c - ((s 0).sh.cells.take p).sum]? = some (E.reading p (s p) (rr p) c) := by
      have hlt : c - ((s 0).sh.cells.take p).sum < (s p).sh.count p := by
        show _ < (s p).sh.cells.getD p 0
        rw [h.agree p hp]; omega
      unfold Engine.mine
      rw [List.getElem?_map, List.getElem?_range hlt]
      show some (E.reading p (s p) (rr p) (((s p).sh.cells.take p).sum + _)) = _
      rw [h.agree p hp, Nat.add_sub_cancel' h1]
    have := flatten_at hpm hx
    rw [hmap, Nat.add_sub_cancel' h1] at this
    exact this
  · have := hg b (List.mem_of_getElem? hb) i hi
    rw [List.length_append, List.length_take, List.length_replicate]; omega

theorem served_read {s : Nat → St χ} (h : Ready n s) (hn : 0 < n) (r : Reading) (r0 : Nat → Res IRM)
    (ha : ∀ p < n, (r0 p).Alive) : ∃ s' : Nat → St χ,
      Served E n (perform E n (.getReading r) (s 0)) (fun p => (r0 p, s p)) (.ok .ok, s' 0)
        (fun p => (.ok .ok, s' p)) ∧ (s' 0).out = readOut E n (kinds r) (fun p => (s p).clear) := by
  have hf := fin_read (E := E) (s := fun p => (s p).clear)
    (lay_soft (lay_of_ready h) hn (fun p _ => Soft.clear _)) (kinds r)
  cases hf with
  | ok a s' h1 q =>
    obtain ⟨rfl, _, q⟩ := q
    exact ⟨s', Served.told (ws := fun p => (r0 p, s p)) (.getReading r.asked) nofun (fun p => readBody E p (kinds r p))
      (s1 := fun p => (s p).clear) (tells_read _ _)
      (fun p _ h0 => by rw [dispatch_read h0, kinds, if_neg h0]) ha h1, q⟩
  | threw s' h1 q => exact q.elim

end Verif.Lockstep
