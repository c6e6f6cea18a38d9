import Verif.Input.Props

/-!
# Cases that meet the hypotheses
-/

namespace Verif.Input.Demo

open Verif.Input Verif.Input.Spec

/-- A text with `;`, a comment, a backslash and an empty line. -/
def t1 : Text := "SOLUTION 1; pH 7 # acid; no\n\n  -units \\ \n mol\\x\nEND".toList

/-- Its parts, from the back. -/
def b4 : List Bit := [.lit [] 'x', .stop false, .chr 'E', .chr 'N', .chr 'D']
@[inherit_doc b4]
def b3 : List Bit := .cont " ".toList :: (" mol".toList.map .chr ++ b4)
@[inherit_doc b4]
def b2 : List Bit := .comment " acid; no".toList :: .stop false :: ("  -units ".toList.map .chr ++ b3)
@[inherit_doc b4]
def b1 : List Bit := "SOLUTION 1".toList.map .chr ++ (.stop true :: (" pH 7 ".toList.map .chr ++ b2))

theorem b1_text : text b1 .none = t1 := by rfl

theorem b1_pieces : filled (pieces [] b1 .none) =
    ["SOLUTION 1", " pH 7 ", "  -units  mol\\x", "END"].map String.toList := by decide +kernel

theorem b1_clear : Clear b1 := by
  intro w c h
  have : (b1.all (fun b => match b with
    | .lit _ c => c ≠ '#' && c ≠ ';'
    | _ => true)) = true := by decide +kernel
  have := List.all_eq_true.mp this _ h
  simpa using this

theorem b4_ok : Ok b4 .none := by
  refine ⟨⟨fun c h => by simp at h, by decide, by decide⟩, trivial, ?_, ?_, ?_, trivial⟩ <;>
    (unfold Bit.Ok; decide)

theorem b3_ok : Ok b3 .none :=
  ⟨by unfold Bit.Ok Blanks; decide, ok_chrs _ _ _ (by decide +kernel) b4_ok⟩

theorem b2_ok : Ok b2 .none :=
  ⟨by unfold Bit.Ok; decide +kernel, trivial, ok_chrs _ _ _ (by decide +kernel) b3_ok⟩

theorem b1_ok : Ok b1 .none := by
  have h : Ok (.stop true :: (" pH 7 ".toList.map .chr ++ b2)) .none :=
    ⟨trivial, ok_chrs _ _ _ (by decide +kernel) b2_ok⟩
  exact ok_chrs _ _ _ (by decide +kernel) h

theorem plain_line (m : Text) (h : includeName m = none) : ∀ f, ¬ Includes m f :=
  (not_includes_iff m).mpr h

/-- C146 at this text, on a file system without files. -/
example : ∃ ls, ReadsText (fun _ => none) t1 ls .eof ∧ ls.map Line.text =
    ["SOLUTION 1", " pH 7 ", "  -units  mol\\x", "END"].map String.toList := by
  obtain ⟨ls, h1, h2, _⟩ := lines_of_text_partial (fun _ => none) t1 b1 .none
    (by rw [b1_text]; exact unix_self (by decide +kernel)) b1_ok b1_clear (by
      rw [b1_pieces]
      intro m hm
      refine plain_line m ?_
      revert m
      decide +kernel)
  exact ⟨ls, h1, by rw [h2, b1_pieces]⟩

/-- A file in two lines, without newline at its end. -/
def fs1 : Text → Option Text := fun f =>
  if f = "in.pqi".toList then some "pH 7\nEND".toList else none

/-- The parts of the file. -/
theorem file_pieces : Pieces "pH 7\nEND".toList ["pH 7".toList, "END".toList] := by
  refine ⟨"pH 7".toList.map .chr ++ .stop false :: ("END".toList.map .chr ++ []), .none, ?_, ?_, ?_,
    by decide +kernel⟩
  · exact unix_self (by decide +kernel)
  · refine ok_chrs _ _ _ (by decide +kernel) ⟨trivial, ?_⟩
    exact ok_chrs _ _ _ (by decide +kernel) trivial
  · intro w c h
    simp at h

/-- The parts of an input with an include line. -/
theorem main_pieces : Pieces "SOLUTION 1\nINCLUDE$  in.pqi \nEND\n".toList
    ["SOLUTION 1".toList, "INCLUDE$  in.pqi ".toList, "END".toList] := by
  refine ⟨"SOLUTION 1".toList.map .chr ++ .stop false :: ("INCLUDE$  in.pqi ".toList.map .chr ++
    .stop false :: ("END".toList.map .chr ++ [.stop false])), .none, ?_, ?_, ?_, by decide +kernel⟩
  · exact unix_self (by decide +kernel)
  · refine ok_chrs _ _ _ (by decide +kernel) ⟨trivial, ?_⟩
    refine ok_chrs _ _ _ (by decide +kernel) ⟨trivial, ?_⟩
    exact ok_chrs _ _ _ (by decide +kernel) ⟨trivial, trivial⟩
  · intro w c h
    simp at h

theorem inc : Includes "INCLUDE$  in.pqi ".toList "in.pqi".toList :=
  (includes_iff _ _).mpr (by decide +kernel)

/-- C147 at this input. -/
example : ∃ ls, ReadsText fs1 "SOLUTION 1\nINCLUDE$  in.pqi \nEND\n".toList ls .eof ∧
    ls.map Line.text = ["SOLUTION 1", "pH 7", "END", "END"].map String.toList := by
  obtain ⟨ls, h1, h2, _⟩ := includes_expanded_partial fs1 _ _ _ none main_pieces
    (.line (plain_line _ (by decide +kernel)) (.file inc (by decide +kernel) file_pieces
      (.line (plain_line _ (by decide +kernel)) (.line (plain_line _ (by decide +kernel)) .nil))
      (.line (plain_line _ (by decide +kernel)) .nil)))
  exact ⟨ls, h1, h2⟩

/-- C147, a file that is not there. -/
example : ∃ ls, ReadsText (fun _ => none) "SOLUTION 1\nINCLUDE$  in.pqi \nEND\n".toList ls
      (.fail "in.pqi".toList) ∧ ls.map Line.text = ["SOLUTION 1".toList] := by
  obtain ⟨ls, h1, h2, _⟩ := includes_expanded_partial (fun _ => none) _ _ _ (some _) main_pieces
    (.line (plain_line _ (by decide +kernel)) (.missing inc rfl))
  exact ⟨ls, h1, h2⟩

/-- C147: reading ends on this file system. -/
example : ∃ ls en, ReadsText fs1 "SOLUTION 1\nINCLUDE$  in.pqi \nEND\n".toList ls en := by
  refine includes_end fs1 (fun _ => 0) (fun _ => ["pH 7".toList, "END".toList]) ?_ ?_ _ _ main_pieces
  · intro f u h
    unfold fs1 at h
    split_ifs at h
    rw [← Option.some.inj h]
    exact file_pieces
  · intro f u _ m hm g hg
    have : includeName m = none := by clear hg; revert m; decide +kernel
    exact absurd hg (plain_line m this g)

/-- Two printed lines. -/
def ps1 : List Printed :=
  [⟨[("  ".toList, "-totals".toList)], []⟩,
    ⟨[("    ".toList, "Ca".toList), ("  ".toList, "1.5e-3".toList)], " ".toList⟩]

theorem ps1_ok : ∀ p ∈ ps1, p.Ok := by
  intro p hp
  have h : ∀ p ∈ ps1, p.words ≠ [] ∧ (∀ c ∈ p.tail, c = ' ' ∨ c = '\t') ∧
      (∀ x ∈ p.words, (∀ c ∈ x.1, c = ' ' ∨ c = '\t') ∧
        (x.2 ≠ [] ∧ ∀ c ∈ x.2, c ∉ white) ∧ '#' ∉ x.2 ∧ ';' ∉ x.2 ∧ '\\' ∉ x.2) ∧
      (∀ x ∈ p.words.tail, x.1 ≠ []) ∧ includeName p.text = none := by decide +kernel
  obtain ⟨a, b, c, d, e⟩ := h p hp
  exact ⟨a, b, c, d, plain_line _ e⟩

/-- C148 at these lines. -/
example : ∃ ls, ReadsText (fun _ => none) (print ps1) ls .eof ∧
    ls.map (fun l => tokens (l.text.length + 1) l.text) =
      [["-totals".toList], ["Ca".toList, "1.5e-3".toList]] := by
  obtain ⟨ls, h1, h2, _⟩ := printed_lines_read_back (fun _ => none) ps1 ps1_ok
  exact ⟨ls, h1, h2⟩

end Verif.Input.Demo
