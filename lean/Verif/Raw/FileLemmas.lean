import Verif.Raw.File
import Verif.Raw.Lemmas

/-!
# A whole dump file: lemmas
-/

namespace Verif.Raw

open Verif.OMap Verif.NameDouble

theorem skip_blockEnd {ls : List Line} (h : BlockEnd ls) : skip ls = ls := by
  rcases h with rfl | ⟨w, l, ms, rfl, hw⟩
  · rfl
  · simp [skip, List.dropWhile_cons, isKeyLine, hw]

/-- A text starts with the header of a data block. -/
def Headed (kw : String) (ls : List Line) : Prop := ∃ l ms, ls = (.word kw.toList :: l) :: ms

theorem blockEnd_flatMap {β : Type} {kw : String} (hk : isKeyword kw.toList = true)
    (dump : β → List Line) (hd : ∀ x, Headed kw (dump x)) (xs : List β) {ls : List Line}
    (h : BlockEnd ls) : BlockEnd (xs.flatMap dump ++ ls) := by
  cases xs with
  | nil => exact h
  | cons x xs =>
    obtain ⟨l, ms, e⟩ := hd x
    refine Or.inr ⟨kw.toList, l, ms ++ (xs.flatMap dump ++ ls), ?_, hk⟩
    rw [List.flatMap_cons, e]
    simp

/-- The file reader treats a sequence of blocks of one kind. -/
theorem readBlocks_kind {β : Type} {kw : String} (hk : isKeyword kw.toList = true)
    (dump : β → List Line) (hd : ∀ x, Headed kw (dump x))
    (read : List Line → β × Nat × List Line) (head : β → Head) (get : Maps → SMap Int β)
    (set : SMap Int β → Maps → Maps) (hget : ∀ t m, get (set t m) = t)
    (hset : ∀ t t' m, set t (set t' m) = set t m) (hsg : ∀ m, set (get m) m = m)
    (hblock : ∀ l ls s, block (.word kw.toList :: l) ls s
      = some (store read head get set ((.word kw.toList :: l) :: ls) s))
    (res : β → β) (hnum : ∀ x, (head (res x)).nUser = (head x).nUser)
    (xs : List β) (hr : ∀ x ∈ xs, ∀ ls, BlockEnd ls → read (dump x ++ ls) = (res x, 0, ls))
    {ls : List Line} (he : BlockEnd ls) (s : FileState) (f : Nat)
    (hf : (xs.flatMap dump ++ ls).length ≤ f) :
    ∃ f', ls.length ≤ f' ∧ readBlocks f (xs.flatMap dump ++ ls) s
      = readBlocks f' ls ⟨set (xs.foldl (fun m x => OMap.insert m (head x).nUser (res x))
          (get s.maps)) s.maps, s.errs⟩ := by
  induction xs generalizing s f with
  | nil =>
    refine ⟨f, hf, ?_⟩
    simp only [List.flatMap_nil, List.nil_append, List.foldl_nil, hsg]
  | cons x xs ih =>
    have he' := blockEnd_flatMap hk dump hd xs he
    have h1 := hr x (List.mem_cons_self ..) _ he'
    obtain ⟨l, ms, e⟩ := hd x
    rw [List.flatMap_cons, List.append_assoc] at hf ⊢
    rw [e, List.cons_append] at hf h1 ⊢
    rw [List.length_cons] at hf
    cases f with
    | zero => omega
    | succ f =>
      have hl : (xs.flatMap dump ++ ls).length ≤ f := by
        rw [List.length_append] at hf; omega
      obtain ⟨f', h2, h3⟩ := ih (fun y hy => hr y (List.mem_cons_of_mem _ hy))
        ⟨set (OMap.insert (get s.maps) (head x).nUser (res x)) s.maps, s.errs⟩ f hl
      refine ⟨f', h2, ?_⟩
      rw [readBlocks, hblock, store]
      simp only [h1, skip_blockEnd he', hnum, Nat.add_zero]
      rw [h3]
      simp only [hget, hset, List.foldl_cons]

/-- An entity that was stored, if no other one with its number was. -/
theorem find_foldl_mem {β : Type} (num : β → Int) (res : β → β) (xs : List β) (m : SMap Int β)
    (hs : Sorted m)
    (hu : ∀ x ∈ xs, ∀ y ∈ xs, num x = num y → x = y) (x : β) (hx : x ∈ xs) :
    find (xs.foldl (fun m x => OMap.insert m (num x) (res x)) m) (num x) = some (res x) := by
  induction xs generalizing m with
  | nil => cases hx
  | cons y xs ih =>
    rw [List.foldl_cons]
    by_cases h : x ∈ xs
    · exact ih _ (sorted_insert hs _ _) (fun a ha b hb => hu a (List.mem_cons_of_mem _ ha) b
        (List.mem_cons_of_mem _ hb)) h
    · have hxy : x = y := (List.mem_cons.mp hx).resolve_right h
      subst hxy
      have hn : ∀ z ∈ xs, num z ≠ num x := by
        intro z hz e
        have := hu z (List.mem_cons_of_mem _ hz) x (List.mem_cons_self ..) e
        exact h (this ▸ hz)
      clear ih hu hx h
      have key : ∀ (zs : List β) (m : SMap Int β), Sorted m → (∀ z ∈ zs, num z ≠ num x) →
          find m (num x) = some (res x) →
          find (zs.foldl (fun m x => OMap.insert m (num x) (res x)) m) (num x) = some (res x) := by
        intro zs
        induction zs with
        | nil => intro m _ _ h; exact h
        | cons z zs ih =>
          intro m hs hz h
          rw [List.foldl_cons]
          refine ih _ (sorted_insert hs _ _) (fun w hw => hz w (List.mem_cons_of_mem _ hw)) ?_
          rw [find_insert, if_neg (Ne.symm (hz z (List.mem_cons_self ..)))]
          exact h
      refine key xs _ (sorted_insert hs _ _) hn ?_
      rw [find_insert, if_pos rfl]

/-- Numbers that were not stored stay as they are. -/
theorem find_foldl_not {β : Type} (num : β → Int) (res : β → β) (xs : List β) (m : SMap Int β)
    (hs : Sorted m) (n : Int) (hn : ∀ x ∈ xs, num x ≠ n) :
    find (xs.foldl (fun m x => OMap.insert m (num x) (res x)) m) n = find m n := by
  induction xs generalizing m with
  | nil => rfl
  | cons x xs ih =>
    rw [List.foldl_cons, ih _ (sorted_insert hs _ _) (fun y hy => hn y (List.mem_cons_of_mem _ hy)),
      find_insert, if_neg (Ne.symm (hn x (List.mem_cons_self ..)))]

/-- Which entities are written. -/
theorem mem_chosen {β : Type} (head : β → Head) (p : Pick) (m : SMap Int β) (hs : Sorted m)
    (hk : ∀ e ∈ m, e.1 = (head e.2).nUser) (x : β) :
    x ∈ chosen head p m ↔ p.on = true ∧ 0 ≤ (head x).nUser ∧ find m (head x).nUser = some x ∧
      (p.nums = [] ∨ (head x).nUser ∈ p.nums) := by
  unfold chosen
  cases p.on with
  | false => simp
  | true =>
    simp only [if_true, true_and]
    by_cases hn : p.nums = []
    · rw [if_pos hn]
      simp only [List.mem_map, List.mem_filter, Bool.and_eq_true, decide_eq_true_eq]
      constructor
      · rintro ⟨e, ⟨he, _, h2⟩, rfl⟩
        have : (e.1, e.2) ∈ m := he
        rw [hk e he] at this
        exact ⟨h2, find_of_mem hs this, Or.inl hn⟩
      · rintro ⟨h1, h2, _⟩
        exact ⟨((head x).nUser, x), ⟨mem_of_find h2, h1, h1⟩, rfl⟩
    · rw [if_neg hn]
      simp only [List.mem_filter, List.mem_filterMap, decide_eq_true_eq]
      constructor
      · rintro ⟨⟨n, h1, h2⟩, h3⟩
        have := hk (n, x) (mem_of_find h2)
        dsimp only at this
        subst this
        exact ⟨h3, h2, Or.inr h1⟩
      · rintro ⟨h1, h2, h3⟩
        exact ⟨⟨_, h3.resolve_left hn, h2⟩, h1⟩

end Verif.Raw
