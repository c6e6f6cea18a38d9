import Verif.Input.Printed

/-!
# What a reader gets of an input
-/

namespace Verif.Input

open Verif.Input.Spec

/-- C147: the lines that readers get are the lines of the text with the lines of the included
files in the place of the include lines, each with its kind; a file that cannot be opened ends
the reading at its line.  Nothing else is read.

Partial: `Pieces` leaves out texts with `#` or `;` behind a backslash, see `Violations`. -/
theorem includes_expanded_partial (fs : Text → Option Text) (t : Text) (ms out : List Text)
    (en : Option Text) (ht : Pieces t ms) (hx : Expand fs ms out en) :
    ∃ ls, ReadsText fs t ls (ending en) ∧ ls.map Line.text = out ∧ (∀ l ∈ ls, Fits l) ∧
      ∀ ls' en', ReadsText fs t ls' en' → ls' = ls ∧ en' = ending en := by
  obtain ⟨bs, e, hu, hok, hcl, hm⟩ := ht
  have h := reads_expand hx bs e hok hcl hm.symm
  have key : ReadsText fs t (out.map asLine) (ending en) := by
    unfold ReadsText
    rw [unix_chars hu]
    cases en with
    | none =>
      have := h.1 rfl [] [] .eof (.eof rfl)
      rw [List.append_nil] at this
      exact this
    | some g => exact h.2 g rfl []
  refine ⟨out.map asLine, key, ?_, fun l hl => ?_, fun ls' en' h' => reads_det h' key⟩
  · rw [List.map_map]
    exact List.map_id _
  · obtain ⟨m, _, rfl⟩ := List.mem_map.mp hl
    exact asLine_fits m

/-- C146: the lines that readers get of a text without include lines are its parts between
newlines, `;` and comments, put together where a physical line ends with a backslash, and
without the empty ones.

Partial: no `#` and no `;` behind a backslash, see `Violations`. -/
theorem lines_of_text_partial (fs : Text → Option Text) (t : Text) (bs : List Bit) (e : Rest)
    (hu : Unix t (text bs e)) (hok : Ok bs e) (hcl : Clear bs)
    (hi : ∀ m ∈ filled (pieces [] bs e), ∀ f, ¬ Includes m f) :
    ∃ ls, ReadsText fs t ls .eof ∧ ls.map Line.text = filled (pieces [] bs e) ∧
      (∀ l ∈ ls, Fits l) ∧ ∀ ls' en', ReadsText fs t ls' en' → ls' = ls ∧ en' = .eof :=
  includes_expanded_partial fs t _ _ none ⟨bs, e, hu, hok, hcl, rfl⟩ (expand_plain hi)

/-- C146: every text has such parts, and one without a backslash has none that is left out. -/
theorem every_text_has_parts (t : Text) :
    ∃ bs e, Unix t (text bs e) ∧ Ok bs e ∧ ('\\' ∉ t → Clear bs) := by
  obtain ⟨bs, e, ht, hok⟩ := parts (chars t).length (chars t) le_rfl
  have hu := chars_unix t.length t le_rfl
  refine ⟨bs, e, by rw [← ht]; exact hu, hok, fun hn w c hm => ?_⟩
  have hmem : ∀ {a b : Text}, Unix a b → ∀ x ∈ b, x ∈ a := by
    intro a b h
    induction h with
    | nil => simp
    | crlf _ ih =>
      intro x hx
      rcases List.mem_cons.mp hx with rfl | hx
      · simp
      · simp [ih x hx]
    | chr _ _ ih =>
      intro x hx
      rcases List.mem_cons.mp hx with rfl | hx
      · simp
      · simp [ih x hx]
  refine absurd (hmem hu '\\' ?_) hn
  rw [ht]
  unfold text
  refine List.mem_append.mpr (Or.inl (List.mem_flatten.mpr ⟨Bit.text (.lit w c), ?_, ?_⟩))
  · exact List.mem_map.mpr ⟨_, hm, rfl⟩
  · exact List.mem_append.mpr (Or.inl (by simp))

/-- C146: carriage returns in front of the newlines change nothing. -/
theorem dos_text_reads_same (fs : Text → Option Text) (t : Text) (ls : List Line) (en : End)
    (h : '\r' ∉ t) : ReadsText fs (dos t) ls en ↔ ReadsText fs t ls en := by
  unfold ReadsText
  rw [unix_chars (unix_dos h), unix_chars (unix_self h)]

/-- C147: if no file includes itself, directly or through others, every text is read to an
end: `rank` goes down from a file to those it includes. -/
theorem includes_end (fs : Text → Option Text) (rank : Text → Nat) (lines : Text → List Text)
    (hp : ∀ f u, fs f = some u → Pieces u (lines f))
    (hr : ∀ f u, fs f = some u → ∀ m ∈ lines f, ∀ g, Includes m g → rank g < rank f)
    (t : Text) (ms : List Text) (ht : Pieces t ms) :
    ∃ ls en, ReadsText fs t ls en := by
  have one : ∀ n, ∀ ms : List Text, (∀ m ∈ ms, ∀ g, Includes m g → rank g < n) →
      ∃ out en, Expand fs ms out en := by
    intro n
    induction n with
    | zero =>
      intro ms h
      exact ⟨ms, none, expand_plain (fun m hm f hf => absurd (h m hm f hf) (Nat.not_lt_zero _))⟩
    | succ n ih =>
      intro ms
      induction ms with
      | nil => intro _; exact ⟨[], none, .nil⟩
      | cons m ms ihm =>
        intro h
        obtain ⟨out, en, hx⟩ := ihm (fun x hx => h x (by simp [hx]))
        cases hm : includeName m with
        | none => exact ⟨m :: out, en, .line ((not_includes_iff m).mpr hm) hx⟩
        | some f =>
          have hf := (includes_iff m f).mpr hm
          have hlt := h m (by simp) f hf
          cases hfs : fs f with
          | none => exact ⟨[], some f, .missing hf hfs⟩
          | some u =>
            obtain ⟨a, en', ha⟩ := ih (lines f) (fun x hx g hg =>
              lt_of_lt_of_le (hr f u hfs x hx g hg) (Nat.lt_succ_iff.mp hlt))
            cases en' with
            | none => exact ⟨a ++ out, en, .file hf hfs (hp f u hfs) ha hx⟩
            | some g => exact ⟨a, some g, .inner hf hfs (hp f u hfs) ha⟩
  have bound : ∃ n, ∀ m ∈ ms, ∀ g, Includes m g → rank g < n := by
    clear ht
    induction ms with
    | nil => exact ⟨0, by simp⟩
    | cons m ms ih =>
      obtain ⟨n, hn⟩ := ih
      cases hm : includeName m with
      | none =>
        refine ⟨n, fun x hx g hg => ?_⟩
        rcases List.mem_cons.mp hx with rfl | hx
        · exact absurd hg ((not_includes_iff _).mpr hm g)
        · exact hn x hx g hg
      | some f =>
        refine ⟨n + rank f + 1, fun x hx g hg => ?_⟩
        rcases List.mem_cons.mp hx with rfl | hx
        · have := (includes_iff _ g).mp hg
          rw [hm] at this
          rw [Option.some.inj this]
          omega
        · have := hn x hx g hg
          omega
  obtain ⟨n, hn⟩ := bound
  obtain ⟨out, en, hx⟩ := one n ms hn
  obtain ⟨ls, h, _⟩ := includes_expanded_partial fs t ms out en ht hx
  exact ⟨ls, _, h⟩

/-! ## Printed lines -/

/-- C148: the words of a line, one after the other, are what the readers get from it. -/
theorem tokens_are_words (m : Text) (ws : List Text) (h : Words m ws) :
    tokens (m.length + 1) m = ws := words_tokens h _ (Nat.lt_succ_self _)

/-- C148: printed lines are read back line by line and word by word. -/
theorem printed_lines_read_back (fs : Text → Option Text) (ps : List Printed)
    (h : ∀ p ∈ ps, p.Ok) :
    ∃ ls, ReadsText fs (print ps) ls .eof ∧
      ls.map (fun l => tokens (l.text.length + 1) l.text) = ps.map (fun p => p.words.map Prod.snd) ∧
      (∀ l ∈ ls, Fits l) ∧ ∀ ls' en', ReadsText fs (print ps) ls' en' → ls' = ls ∧ en' = .eof := by
  have parts : ∃ bs, print ps = text bs .none ∧ Ok bs .none ∧ Clear bs ∧
      filled (pieces [] bs .none) = ps.map Printed.text ∧ '\r' ∉ print ps := by
    induction ps with
    | nil =>
      refine ⟨[], rfl, trivial, fun w c hm => by simp at hm, by simp [pieces, filled], by simp [print]⟩
    | cons p ps ih =>
      obtain ⟨bs, h1, h2, h3, h4, h5⟩ := ih (fun q hq => h q (by simp [hq]))
      obtain ⟨hne, htl, hw, _, _⟩ := h p (by simp)
      have hc := printed_chars p.words p.tail htl hw
      have hpr : print (p :: ps) = p.text ++ '\n' :: print ps := by simp [print]
      refine ⟨p.text.map Bit.chr ++ .stop false :: bs, ?_, ?_, ?_, ?_, ?_⟩
      · rw [hpr, text_chrs, text_cons, h1]; rfl
      · exact ok_chrs _ _ _ (fun c hm => (hc c hm).1) ⟨trivial, h2⟩
      · intro w c hm
        rcases List.mem_append.mp hm with hm | hm
        · obtain ⟨x, _, hx⟩ := List.mem_map.mp hm
          cases hx
        · rcases List.mem_cons.mp hm with hm | hm
          · cases hm
          · exact h3 w c hm
      · rw [pieces_chrs]
        show filled (([] ++ p.text) :: pieces [] bs .none) = _
        rw [List.nil_append, filled_cons, h4]
        have : blank p.text = false := by
          cases hws : p.words with
          | nil => exact absurd hws hne
          | cons x ws =>
            obtain ⟨_, ⟨hxn, hxw⟩, _⟩ := hw x (by rw [hws]; simp)
            cases hx2 : x.2 with
            | nil => exact absurd hx2 hxn
            | cons c r =>
              have hcw := hxw c (by rw [hx2]; simp)
              unfold blank
              rw [List.all_eq_false]
              refine ⟨c, ?_, by rw [(not_white c).mp hcw]; decide⟩
              unfold Printed.text
              rw [hws]
              simp [hx2]
        rw [this]
        simp
      · rw [hpr]
        intro hm
        rcases List.mem_append.mp hm with hm | hm
        · exact (hc _ hm).2 rfl
        · rcases List.mem_cons.mp hm with hm | hm
          · exact absurd hm (by decide)
          · exact h5 hm
  obtain ⟨bs, h1, h2, h3, h4, h5⟩ := parts
  obtain ⟨ls, hl, ht, hf, hu⟩ := lines_of_text_partial fs (print ps) bs .none
    (by rw [← h1]; exact unix_self h5) h2 h3 (by
      intro m hm
      rw [h4] at hm
      obtain ⟨p, hp, rfl⟩ := List.mem_map.mp hm
      exact (h p hp).2.2.2.2)
  refine ⟨ls, hl, ?_, hf, hu⟩
  rw [h4] at ht
  have : ls.map (fun l => tokens (l.text.length + 1) l.text) =
      (ls.map Line.text).map (fun m => tokens (m.length + 1) m) := by rw [List.map_map]; rfl
  rw [this, ht, List.map_map]
  refine List.map_congr_left (fun p hp => ?_)
  obtain ⟨_, htl, hw, hb, _⟩ := h p hp
  exact tokens_are_words _ _ (words_printed p.words p.tail htl hw hb)

end Verif.Input
