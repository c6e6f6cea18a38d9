import Verif.AutoOutput.Model
import Mathlib.Tactic.Ring

/-! Helper lemmas about the generated map, the columns and slices of the flattened table. -/

namespace Verif.AutoOutput

open Verif.OMap

theorem addVars_other (es : List Entry) (vars : SMap Name (Name × Nat)) (col : Nat) (k : Name)
    (h : ∀ e ∈ es, lower e.name ≠ k) : find (addVars vars col es) k = find vars k := by
  induction es generalizing vars col with
  | nil => rfl
  | cons e es ih =>
    rw [addVars, ih _ _ (fun x hx => h x (List.mem_cons_of_mem _ hx)), find_insert,
      if_neg (fun e' => h e List.mem_cons_self e'.symm)]

theorem addVars_last (a : List Entry) (e : Entry) (b : List Entry) (vars : SMap Name (Name × Nat))
    (col : Nat) (h : ∀ x ∈ b, lower x.name ≠ lower e.name) :
    find (addVars vars col (a ++ e :: b)) (lower e.name) = some (e.name, col + a.length) := by
  induction a generalizing vars col with
  | nil =>
    rw [List.nil_append, addVars, addVars_other _ _ _ _ h, find_insert, if_pos rfl]
    rfl
  | cons x a ih =>
    rw [List.cons_append, addVars, ih]
    simp only [List.length_cons, Option.some.injEq, Prod.mk.injEq, true_and]
    omega

theorem addVars_sorted (es : List Entry) (vars : SMap Name (Name × Nat)) (col : Nat)
    (h : Sorted vars) : Sorted (addVars vars col es) := by
  induction es generalizing vars col with
  | nil => exact h
  | cons e es ih => exact ih _ _ (sorted_insert h _ _)

/-- Every looked up name belongs to an entry, the last one with that name. -/
theorem addVars_find (es : List Entry) (vars : SMap Name (Name × Nat)) (col : Nat) (k : Name)
    (v : Name × Nat) (h : find (addVars vars col es) k = some v) :
    (find vars k = some v ∧ ∀ e ∈ es, lower e.name ≠ k) ∨
      ∃ a e b, es = a ++ e :: b ∧ lower e.name = k ∧ v = (e.name, col + a.length) := by
  induction es generalizing vars col with
  | nil => exact .inl ⟨h, by simp⟩
  | cons e es ih =>
    rcases ih _ _ h with ⟨h1, h2⟩ | ⟨a, e', b, h1, h2, h3⟩
    · rw [find_insert] at h1
      split at h1
      · rename_i hk
        exact .inr ⟨[], e, es, rfl, hk.symm, by cases h1; rfl⟩
      · rename_i hk
        refine .inl ⟨h1, fun x hx => ?_⟩
        rcases List.mem_cons.mp hx with rfl | hx
        · exact fun e' => hk e'.symm
        · exact h2 x hx
    · refine .inr ⟨e :: a, e', b, by rw [h1]; rfl, h2, ?_⟩
      rw [h3]
      simp only [List.length_cons, Prod.mk.injEq, true_and]
      omega

theorem pushCol_keys (cols : List (Name × List ℚ)) (h : Name) (v : List ℚ) :
    (pushCol cols h v).map Prod.fst =
      if h ∈ cols.map Prod.fst then cols.map Prod.fst else cols.map Prod.fst ++ [h] := by
  unfold pushCol
  split
  · rw [List.map_map]
    apply List.map_congr_left
    intro p _
    simp only [Function.comp]
    split
    · rename_i e; exact e.symm
    · rfl
  · simp

theorem columns_from (nxyz : Nat) (w : Expr → Nat → ℚ) (es : List Entry)
    (acc : List (Name × List ℚ))
    (hd : (acc.map Prod.fst ++ es.map Entry.name).Nodup) :
    es.foldl (fun cols e => pushCol cols e.name ((List.range nxyz).map (w e.expr))) acc =
      acc ++ es.map (fun e => (e.name, (List.range nxyz).map (w e.expr))) := by
  induction es generalizing acc with
  | nil => simp
  | cons e es ih =>
    have hn : e.name ∉ acc.map Prod.fst := by
      intro hm
      rw [List.nodup_append] at hd
      exact hd.2.2 _ hm _ (by simp) rfl
    rw [List.foldl_cons]
    have e1 : pushCol acc e.name ((List.range nxyz).map (w e.expr)) =
        acc ++ [(e.name, (List.range nxyz).map (w e.expr))] := by
      unfold pushCol
      rw [if_neg hn]
    rw [e1, ih]
    · simp
    · simpa using hd

theorem columns_distinct (nxyz : Nat) (w : Expr → Nat → ℚ) (es : List Entry)
    (hd : (es.map Entry.name).Nodup) :
    columns nxyz w es = es.map (fun e => (e.name, (List.range nxyz).map (w e.expr))) := by
  have := columns_from nxyz w es [] (by simpa using hd)
  simpa [columns] using this

/-- Slices of a table whose columns all have the same length. -/
theorem slice_flat {α β : Type} (n : Nat) (f : β → List α) (hf : ∀ x, (f x).length = n)
    (a : List β) (e : β) (b : List β) :
    (((a ++ e :: b).flatMap f).drop (a.length * n)).take n = f e ∧
      (a.length + 1) * n ≤ ((a ++ e :: b).flatMap f).length := by
  have hl : ∀ l : List β, (l.flatMap f).length = l.length * n := by
    intro l
    induction l with
    | nil => simp
    | cons x l ih => rw [List.flatMap_cons, List.length_append, hf, ih, List.length_cons]; ring
  constructor
  · rw [List.flatMap_append, List.flatMap_cons, List.drop_left' (hl a), List.take_left' (hf e)]
  · rw [hl, List.length_append, List.length_cons]
    exact Nat.mul_le_mul_right _ (by omega)

end Verif.AutoOutput
