import Verif.Input.Printed

/-!
# Where reading an input departs from its rules
-/

namespace Verif.Input

open Verif.Input.Spec

/-- A `#` behind a backslash begins no comment for `get_logical_line`: the loop behind the
backslash takes it as any character (`PHRQ_io.cpp:874-883`), and a `;` later in the comment ends the
line.  `get_line` still cuts the line at the `#`.  What is behind the `;` is read, here as a
keyword. -/
theorem comment_behind_backslash_is_read (fs : Text → Option Text) :
    ReadsText fs "x \\# off; SOLUTION 1\n".toList
      [⟨.ok, "x \\".toList⟩, ⟨.keyword, " SOLUTION 1".toList⟩] .eof :=
  .line (st' := [" SOLUTION 1\n".toList]) (by rfl) <|
  .line (st' := [[]]) (by rfl) <|
  .more (st' := []) (by rfl) (.eof rfl)

/-- A `;` behind a backslash does not end the line. -/
theorem semicolon_behind_backslash_is_text (fs : Text → Option Text) :
    ReadsText fs "x \\; y\n".toList [⟨.ok, "x \\; y".toList⟩] .eof :=
  .line (st' := [[]]) (by rfl) <| .more (st' := []) (by rfl) (.eof rfl)

/-- A file that includes itself: reading never ends, and every turn leaves one more stream
open (`PHRQ_io.cpp:791-814` does not look at the streams that are open). -/
theorem self_include_never_ends (fs : Text → Option Text) (u : Text)
    (h : fs "a".toList = some ("include$ a\n".toList ++ u)) (hu : '\r' ∉ u) (ls : List Line)
    (en : End) : ¬ ReadsText fs "include$ a\n".toList ls en := by
  have step : ∀ v st, '\r' ∉ v →
      turn fs (("include$ a\n".toList ++ v) :: st) =
        .more (("include$ a\n".toList ++ u) :: v :: st) := by
    intro v st _
    have h1 : logical ("include$ a\n".toList ++ v) = some ("include$ a".toList, v) := by rfl
    have h2 : includeName (cut "include$ a".toList) = some "a".toList := by rfl
    have h3 : blank (cut "include$ a".toList) = false := by rfl
    have h4 : chars ("include$ a\n".toList ++ u) = "include$ a\n".toList ++ u := by
      refine unix_chars (unix_self ?_)
      intro hm
      rcases List.mem_append.mp hm with hm | hm
      · exact absurd hm (by decide)
      · exact hu hm
    unfold turn
    dsimp only
    rw [h1]
    dsimp only
    rw [h3, h2]
    dsimp only
    rw [h]
    dsimp only
    rw [h4]
    rfl
  have gen : ∀ st ls en, Reads fs st ls en → ∀ v r, '\r' ∉ v →
      st = ("include$ a\n".toList ++ v) :: r → False := by
    intro st ls en hr
    induction hr with
    | eof h0 => intro v r hv hs; rw [hs, step v r hv] at h0; cases h0
    | fail h0 => intro v r hv hs; rw [hs, step v r hv] at h0; cases h0
    | line h0 _ _ => intro v r hv hs; rw [hs, step v r hv] at h0; cases h0
    | more h0 _ ih =>
      intro v r hv hs
      rw [hs, step v r hv] at h0
      exact ih u (v :: r) hu (Turn.more.inj h0).symm
  intro hr
  refine gen _ _ _ hr [] [] (by simp) ?_
  rfl

end Verif.Input
