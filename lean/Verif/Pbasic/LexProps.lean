import Verif.Pbasic.LexLines
import Verif.Pbasic.LexCase
import Verif.Pbasic.Props

/-!
# Properties of the text of a BASIC program

C158: a line is read as the tokens that it writes.  C159: a program is made of
the lines of its text.  C160: a program text does what it says.
-/

namespace Verif.Pbasic

/-! ## C158 -/

/-- A line is read as the tokens that it writes, whatever the blanks, the size
of the letters, the form of the numbers and the quotes of the strings. -/
theorem line_tokens (ts : List Tok) (cs : List Char) (h : Text (· = ' ') ts cs) (hb : Balanced ts) :
    parse cs = .ok ts := by
  rw [parse_text_eq h, if_pos (balanced_iff.mp hb)]

/-- A line that opens more parentheses than it closes, or fewer, is an error. -/
theorem parentheses_counted (ts : List Tok) (cs : List Char) (h : Text (· = ' ') ts cs)
    (hb : ¬ Balanced ts) : parse cs = .err := by
  rw [parse_text_eq h, if_neg (fun hc => hb (balanced_iff.mpr hc))]

/-- A string that is not closed is an error, whatever comes before it. -/
theorem quote_closed (ts : List Tok) (cs gap s : List Char) (q : Char)
    (h : Starts (· = ' ') ts cs (gap ++ q :: s)) (hg : ∀ c ∈ gap, c = ' ')
    (hq : q = '"' ∨ q = '\'') (hs : q ∉ s) : parse cs = .err := by
  unfold parse
  rw [lex_unclosed h hg hq hs]
  rfl

/-- A line writes one row of tokens only. -/
theorem line_unambiguous (ts us : List Tok) (cs : List Char) (h : Text (· = ' ') ts cs)
    (h' : Text (· = ' ') us cs) : ts = us := by
  have h1 := lex_text h
  rw [lex_text h'] at h1
  exact (Res.ok.inj h1).symm

/-- Every row of tokens that have a written form can be written in one line. -/
theorem line_exists (ts : List Tok) (h : ∀ t ∈ ts, ∃ w, Spells t w) : ∃ cs, Text (· = ' ') ts cs := by
  have : ∃ cs, Starts (· = ' ') ts cs [] ∧ ∀ c, cs.head? = some c → c = ' ' := by
    induction ts with
    | nil => exact ⟨[], .done, fun c hc => by simp at hc⟩
    | cons t ts ih =>
        obtain ⟨cs, h1, h2⟩ := ih fun t ht => h t (List.mem_cons_of_mem _ ht)
        obtain ⟨w, hw⟩ := h t (by simp)
        refine ⟨[' '] ++ (w ++ cs), .next (by simp) hw ?_ h1, fun c hc => by simpa using hc.symm⟩
        intro c hc
        have := h2 c hc
        subst this
        exact ⟨fun _ => ⟨by unfold Wordly; decide, by decide⟩, fun _ => by decide, fun _ => by decide⟩
  obtain ⟨cs, h1, -⟩ := this
  exact ⟨cs, .plain h1⟩

/-- The size of letters outside strings makes no difference, in any line. -/
theorem letter_size (cs : List Char) (h1 : '"' ∉ cs) (h2 : '\'' ∉ cs) :
    parse (cs.map Char.toLower) = parse cs := by
  unfold parse
  rw [List.length_map, low_lex _ _ h1 h2]

/-! ## C159 -/

/-- The text of a program gives the program that has, in the order of the line
numbers, for each number the last line of the text with that number, unless that
line is empty. -/
theorem text_lines (es : List (Nat × List Tok)) (cs : List Char) (h : ProgText es cs) :
    ∃ prog, compile cs = .ok prog ∧ prog.Pairwise (fun a b => a.num < b.num) ∧
      ∀ l : Line, l ∈ prog ↔
        l.txt ≠ [] ∧ (es.filter fun e => e.1 = l.num).getLast? = some (l.num, l.txt) := by
  refine ⟨_, compileLines_eq h _ [] (Nat.lt_succ_self _), ?_⟩
  exact program_lines es

/-- A text whose line numbers grow gives the lines as they are written. -/
theorem text_in_order (ls : List Line) (cs : List Char)
    (h : ProgText (ls.map fun l => (l.num, l.txt)) cs) (hne : ∀ l ∈ ls, l.txt ≠ [])
    (ho : ls.Pairwise fun a b => a.num < b.num) : compile cs = .ok ls := by
  unfold compile
  rw [compileLines_eq h _ [] (Nat.lt_succ_self _), enter_increasing ls [] hne (by simpa using ho)]
  rfl

/-! ## C160 -/

variable {A : Arith}

/-- The text of a structured program is a program that does what it says. -/
theorem text_runs (sub : Nat → Option Blk) (b : Blk) (ls tail : List Line) (cs : List Char) (s' : St)
    (h : ProgText ((ls ++ tail).map fun l => (l.num, l.txt)) cs)
    (hne : ∀ l ∈ ls ++ tail, l.txt ≠ []) (ho : (ls ++ tail).Pairwise fun a b => a.num < b.num)
    (hw : WritesB b ls) (ht : Finishes tail) (hs : HasSubs (ls ++ tail) sub)
    (hr : Runs A sub (.b b) ⟨fun _ => ⟨[], fun _ => 0, fun _ => []⟩, []⟩ s') :
    ∃ prog, compile cs = .ok prog ∧ ∃ N, ∀ n, N ≤ n →
      run A prog n (start prog) = .ok ⟨[], [], s'.env, [], [], [], s'.outp⟩ :=
  ⟨ls ++ tail, text_in_order _ cs h hne ho, structured_program A sub b ls tail s' hw ht hs hr⟩

end Verif.Pbasic
