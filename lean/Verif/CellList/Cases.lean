import Verif.CellList.Props

/-!
# Cases and violations for lists of cells
-/

namespace Verif.CellList

open Verif.Store

/-- The texts of some words. -/
example : (Word.range (-3) (-1)).text = "-3--1".toList ∧ (Word.range 3 5).text = "3-5".toList ∧
    (Word.one 120).text = "120".toList := by decide +kernel

/-- A list that meets the hypothesis of `list_selects_partial`, with what it selects. -/
example : (∀ w ∈ [Word.one 1, .range 5 3, .range (-2) (-1), .one 7], w.Ok) := by
  intro w hw
  simp only [List.mem_cons, List.not_mem_nil, or_false] at hw
  rcases hw with rfl | rfl | rfl | rfl <;> simp [Word.Ok, InInt]

example : augmentLine ⟨[], false⟩ ["1".toList, "5-3".toList, "-2--1".toList, "7".toList] =
    .ok ⟨[-2, -1, 1, 3, 4, 5, 7], true⟩ := by decide +kernel

/-- **C98 violated.** A number too large for an int is dropped; if it is the only one, the list
selects everything. -/
theorem out_of_range_selects_all :
    ∃ it, augmentLine ⟨[], false⟩ ["3000000000".toList] = .ok it ∧ ∀ n, it.Selects n := by
  refine ⟨⟨[], true⟩, by decide +kernel, fun n => ⟨rfl, .inl rfl⟩⟩

/-- The same without an int: the word `.5` is accepted as a number. -/
theorem not_a_number_selects_all :
    ∃ it, augmentLine ⟨[], false⟩ [".5".toList] = .ok it ∧ ∀ n, it.Selects n := by
  refine ⟨⟨[], true⟩, by decide +kernel, fun n => ⟨rfl, .inl rfl⟩⟩

/-- A range up to the largest int is undefined. -/
theorem range_to_max_ub :
    augmentLine ⟨[], false⟩ ["2147483646-2147483647".toList] = .ub := by decide +kernel

/-- Words that are no numbers select part of what is written: `1e3` is cell 1. -/
theorem exponent_cut :
    augmentLine ⟨[], false⟩ ["1e3".toList] = .ok ⟨[1], true⟩ := by decide +kernel

/-- Lines that meet the hypotheses of `delete_partial`. -/
def demoLines : List Line :=
  [⟨.kind .solution, [.range 1 3, .one 9]⟩, ⟨.cells, [.one 4, .range 6 7]⟩,
    ⟨.kind .solution, [.one 12]⟩]

example : (∀ l ∈ demoLines, ∀ w ∈ l.words, w.Ok) ∧ (∀ l ∈ demoLines, l.opt ≠ .all) ∧
    (∀ l ∈ demoLines, l.words ≠ []) := by
  refine ⟨?_, by simp [demoLines], by simp [demoLines]⟩
  intro l hl w hw
  simp only [demoLines, List.mem_cons, List.not_mem_nil, or_false] at hl
  rcases hl with rfl | rfl | rfl <;>
    (simp only [List.mem_cons, List.not_mem_nil, or_false] at hw) <;>
    (first | (rcases hw with rfl | rfl) | (rcases hw with rfl)) <;> simp [Word.Ok, InInt]

/-- **C99 violated.** `-all` followed by `-solution 5` deletes only solution 5 of the solutions;
so does `-solution` with a second line `-solution 5`. -/
theorem delete_all_narrowed :
    (∃ l ∈ ([⟨.all, []⟩, ⟨.kind .solution, [.one 5]⟩] : List Line), l.Asks .solution 6) ∧
      (read ([⟨.all, []⟩, ⟨.kind .solution, [.one 5]⟩].map Line.raw) >>= fun b =>
        Out.ok (deleteEntities b (fun _ _ => some 0) .solution 6)) = .ok (some 0) :=
  ⟨⟨⟨.all, []⟩, by simp, by simp [Line.Asks]⟩, by decide +kernel⟩

theorem delete_kind_narrowed :
    (∃ l ∈ ([⟨.kind .surface, []⟩, ⟨.kind .surface, [.one 5]⟩] : List Line), l.Asks .surface 6) ∧
      (read ([⟨.kind .surface, []⟩, ⟨.kind .surface, [.one 5]⟩].map Line.raw) >>= fun b =>
        Out.ok (deleteEntities b (fun _ _ => some 0) .surface 6)) = .ok (some 0) :=
  ⟨⟨⟨.kind .surface, []⟩, by simp, by simp [Line.Asks]⟩, by decide +kernel⟩

end Verif.CellList
