import Verif.Pbasic.LexProof
import Verif.Pbasic.Lines

/-!
# Lemmas on the division of a program into lines
-/

namespace Verif.Pbasic

/-! ## Tabs -/

theorem untab_id {c : Char} (h1 : c ≠ '\t') (h2 : c ≠ '\r') : untab c = c := if_neg (by simp [h1, h2])

theorem map_untab {w : List Char} (h : ∀ c ∈ w, untab c = c) : w.map untab = w := by
  rw [List.map_congr_left h, List.map_id']

theorem signs_facts : ∀ e ∈ signs, (∀ c ∈ e.2, untab c = c) ∧
    ∃ d, e.2.getLast? = some d ∧ isSpace d = false := by
  have h : ∀ e ∈ signs, (∀ c ∈ e.2, untab c = c) ∧ e.2 ≠ [] ∧
      (e.2.getLast?.all fun d => isSpace d = false) = true := by decide +kernel
  intro e he
  obtain ⟨h1, h2, h3⟩ := h e he
  refine ⟨h1, e.2.getLast h2, List.getLast?_eq_some_getLast h2, ?_⟩
  rw [List.getLast?_eq_some_getLast h2] at h3
  simpa using h3

theorem spells_chars {t : Tok} {w : List Char} (h : Spells t w) : (∀ c ∈ w, untab c = c) ∧
    ∃ d, w.getLast? = some d ∧ isSpace d = false := by
  have any : ∀ {s : List Char}, AnyCase w s → (∀ c ∈ s, c ∈ nameChars) → s ≠ [] →
      (∀ c ∈ w, untab c = c) ∧ ∃ d, w.getLast? = some d ∧ isSpace d = false := by
    intro s hw hs hne
    have hw' := (anyCase_lower hw hs).2
    have hne' : w ≠ [] := by rintro rfl; cases hw; exact hne rfl
    exact ⟨fun c hc => (hw' c hc).2.2, _, List.getLast?_eq_some_getLast hne',
      (hw' _ (List.getLast_mem hne')).2.1⟩
  cases h with
  | sign h => exact signs_facts _ h
  | word h hw =>
      obtain ⟨-, -, -, h4, d, n, h5, -⟩ := words_facts _ h
      exact any hw h4 (by dsimp only at h5; rw [h5]; simp)
  | @var d n _ hc hn hl hr hw =>
      refine any hw ?_ (by simp)
      intro x hx
      rcases List.mem_cons.mp hx with rfl | hx
      · exact List.mem_append_left _ (List.mem_append_left _ hc)
      · exact hn x hx
  | num h =>
      obtain ⟨-, ⟨d, hd, hd'⟩, hall⟩ := numeral_chars h
      constructor
      · intro c hc
        rcases hall c hc with hc | hc
        · have := digit_facts c hc
          exact untab_id this.2.2.2.2.2.2.2.2.2.2.2.2.1 this.2.2.2.2.2.2.2.2.2.2.2.2.2.1
        · exact (by decide : ∀ c ∈ ['.', 'e', 'E', '+', '-'], untab c = c) c hc
      · refine ⟨d, hd, ?_⟩
        rcases hd' with hd' | rfl
        · exact (digit_facts d hd').2.2.2.2.2.2.2.2.2.2.2.2.2.2.1
        · decide
  | @str q s hq hs ht hr =>
      have hq' : untab q = q ∧ isSpace q = false := by rcases hq with rfl | rfl <;> decide
      constructor
      · intro c hc
        simp only [List.mem_cons, List.mem_append, List.not_mem_nil, or_false] at hc
        rcases hc with rfl | hc | rfl
        · exact hq'.1
        · exact untab_id (by rintro rfl; exact ht hc) (by rintro rfl; exact hr hc)
        · exact hq'.1
      · exact ⟨q, by simp [List.getLast?_cons], hq'.2⟩

theorem untab_cases (c : Char) : untab c = ' ' ∨ untab c = c := by
  unfold untab
  split
  · exact Or.inl rfl
  · exact Or.inr rfl

theorem not_wordly_untab {c : Char} (h : ¬ Wordly c) : ¬ Wordly (untab c) := by
  rcases untab_cases c with h1 | h1
  · rw [h1]; unfold Wordly; decide
  · rw [h1]; exact h

theorem apart_untab {w cs : List Char} (h : Apart w cs) : Apart w (cs.map untab) := by
  intro c hc
  cases cs with
  | nil => simp at hc
  | cons a cs =>
      simp only [List.map_cons, List.head?_cons, Option.some.injEq] at hc
      subst hc
      obtain ⟨h1, h2, h3⟩ := h a rfl
      rcases untab_cases a with h4 | h4
      · rw [h4]
        exact ⟨fun _ => ⟨by unfold Wordly; decide, by decide⟩, fun _ => by decide, fun _ => by decide⟩
      · rw [h4]; exact ⟨h1, h2, h3⟩

theorem untab_blank {gap : List Char} (h : ∀ c ∈ gap, Blank c) : ∀ c ∈ gap.map untab, Sp c := by
  intro c hc
  obtain ⟨a, ha, rfl⟩ := List.mem_map.mp hc
  rcases h a ha with rfl | rfl | rfl <;> rfl

theorem starts_untab {ts : List Tok} {cs rest : List Char} (h : Starts Blank ts cs rest) :
    Starts Sp ts (cs.map untab) (rest.map untab) := by
  induction h with
  | done => exact .done
  | next hg hw ha h ih =>
      rw [List.map_append, List.map_append, map_untab (spells_chars hw).1]
      exact .next (untab_blank hg) hw (apart_untab ha) ih

theorem rem_chars : ∀ d ∈ ['r', 'e', 'm'], d ∈ nameChars := by decide

theorem text_untab {ts : List Tok} {cs : List Char} (h : Text Blank ts cs) :
    Text Sp ts (cs.map untab) := by
  cases h with
  | plain h => exact .plain (starts_untab h)
  | @remark ts _ gap w r h hg hw ha hl =>
      have h1 := starts_untab h
      rw [List.map_append, List.map_append,
        map_untab (fun c hc => ((anyCase_lower hw rem_chars).2 c hc).2.2)] at h1
      refine .remark h1 (untab_blank hg) hw ?_ ?_
      · intro c hc
        rw [List.head?_map] at hc
        obtain ⟨a, ha', rfl⟩ := Option.map_eq_some_iff.mp hc
        exact not_wordly_untab (ha a ha')
      · intro c hc
        rw [List.getLast?_map] at hc
        obtain ⟨a, ha', rfl⟩ := Option.map_eq_some_iff.mp hc
        have h2 := hl a ha'
        rw [untab_id (by rintro rfl; exact absurd h2 (by decide))
          (by rintro rfl; exact absurd h2 (by decide))]
        exact h2

/-! ## The ends of a line -/

theorem starts_last {B : Char → Prop} {ts : List Tok} {cs rest : List Char}
    (h : Starts B ts cs rest) (hr : ∀ c, rest.getLast? = some c → isSpace c = false) :
    ∀ c, cs.getLast? = some c → isSpace c = false := by
  induction h with
  | done => exact hr
  | @next t ts gap w cs rest hg hw ha h ih =>
      obtain ⟨d, h1, h2⟩ := (spells_chars hw).2
      intro c hc
      rw [List.getLast?_append, List.getLast?_append, h1] at hc
      cases hl : cs.getLast? with
      | none =>
          rw [hl] at hc
          simp only [Option.none_or, Option.some_or, Option.some.injEq] at hc
          rw [← hc]; exact h2
      | some a =>
          rw [hl] at hc
          simp only [Option.some_or, Option.some.injEq] at hc
          rw [← hc]; exact ih hr a hl

theorem text_last {B : Char → Prop} {ts : List Tok} {cs : List Char} (h : Text B ts cs) :
    ∀ c, cs.getLast? = some c → isSpace c = false := by
  cases h with
  | plain h => exact starts_last h (fun c hc => by simp at hc)
  | @remark ts _ gap w r h hg hw ha hl =>
      refine starts_last h ?_
      intro c hc
      have hw' := (anyCase_lower hw rem_chars).2
      have hne : w ≠ [] := by rintro rfl; cases hw
      rw [List.getLast?_append, List.getLast?_append, List.getLast?_eq_some_getLast hne] at hc
      cases hlr : r.getLast? with
      | none =>
          rw [hlr] at hc
          simp only [Option.none_or, Option.some_or, Option.some.injEq] at hc
          rw [← hc]; exact (hw' _ (List.getLast_mem hne)).2.1
      | some a =>
          rw [hlr] at hc
          simp only [Option.some_or, Option.some.injEq] at hc
          rw [← hc]; exact hl a hlr

theorem trimmed_eq {lead body trail : List Char} (h1 : ∀ c ∈ lead, isSpace c = true)
    (h2 : ∀ c ∈ trail, isSpace c = true) (hne : body ≠ [])
    (h3 : ∀ c, body.head? = some c → isSpace c = false)
    (h4 : ∀ c, body.getLast? = some c → isSpace c = false) :
    trimmed (lead ++ (body ++ trail)) = body := by
  unfold trimmed
  rw [if_neg]
  · rw [dropWhile_rest h1]
    · rw [List.reverse_append, dropWhile_rest]
      · rw [List.reverse_reverse]
      · intro c hc; exact h2 c (List.mem_reverse.mp hc)
      · intro c hc; rw [List.head?_reverse] at hc; exact h4 c hc
    · intro c hc
      cases body with
      | nil => exact absurd rfl hne
      | cons a b => exact h3 c hc
  · intro h
    rw [List.all_eq_true] at h
    cases body with
    | nil => exact hne rfl
    | cons a b =>
        have := h a (by simp)
        rw [h3 a rfl] at this
        cases this

theorem lineNumber_eq : ∀ {ds rest : List Char} (n : Nat), (∀ c ∈ ds, c ∈ digits) →
    (∀ c, rest.head? = some c → c.isDigit = false) →
    n * 10 ^ ds.length + decimal ds < 9223372036854775760 →
    lineNumber n (ds ++ rest) = .ok (n * 10 ^ ds.length + decimal ds, rest)
  | [], rest, n, _, hr, _ => by
      cases rest with
      | nil => simp [lineNumber, decimal]
      | cons c r => simp [lineNumber, decimal, hr c rfl]
  | d :: ds, rest, n, h, hr, hm => by
      obtain ⟨h1, h2, h3, -⟩ := digit_facts d (h d (by simp))
      have h4 : n * 10 + d.toNat - 48 = n * 10 + digits.idxOf d := by omega
      have h5 : (n * 10 + digits.idxOf d) * 10 ^ ds.length + decimal ds
          = n * 10 ^ (d :: ds).length + decimal (d :: ds) := by
        simp only [decimal, List.length_cons, pow_succ]; ring
      have h6 : n * 10 + digits.idxOf d ≤ n * 10 ^ (d :: ds).length + decimal (d :: ds) := by
        rw [← h5]
        exact le_trans (Nat.le_mul_of_pos_right _ (by positivity)) (Nat.le_add_right _ _)
      rw [List.cons_append]
      unfold lineNumber
      rw [if_pos h1, if_pos (by omega), h4,
        lineNumber_eq _ (fun c hc => h c (List.mem_cons_of_mem _ hc)) hr (by rw [h5]; exact hm), h5]

theorem blank_space {gap : List Char} (h : ∀ c ∈ gap, Blank c) :
    ∀ c ∈ gap.map untab, isSpace c = true := by
  intro c hc
  rw [untab_blank h c hc]; decide

/-- A numbered line goes into the program. -/
theorem inputLine_eq {n : Nat} {ts : List Tok} {l : List Char} (h : LineText n ts l)
    (prog : List Line) : inputLine l prog = .ok (enter n ts prog) := by
  cases h with
  | @mk lead ds cs trail ts h1 h2 hd hp hm hn ht hb =>
      have hds : ds ≠ [] := by rintro rfl; simp [decimal] at hp
      have hdm : ds.map untab = ds := map_untab fun c hc => by
        have := digit_facts c (hd c hc)
        exact untab_id this.2.2.2.2.2.2.2.2.2.2.2.2.1 this.2.2.2.2.2.2.2.2.2.2.2.2.2.1
      have htrim : trimmed ((lead ++ (ds ++ (cs ++ trail))).map untab) = ds ++ cs.map untab := by
        rw [List.map_append, List.map_append, List.map_append, hdm, ← List.append_assoc ds]
        refine trimmed_eq (blank_space h1) (blank_space h2) (by simp [hds]) ?_ ?_
        · intro c hc
          cases ds with
          | nil => exact absurd rfl hds
          | cons a ds =>
              simp only [List.cons_append, List.head?_cons, Option.some.injEq] at hc
              rw [← hc]
              exact (digit_facts a (hd a (by simp))).2.2.2.2.2.2.2.2.2.2.2.2.2.2.1
        · intro c hc
          rw [List.getLast?_append, List.getLast?_eq_some_getLast hds] at hc
          cases hl : (cs.map untab).getLast? with
          | none =>
              rw [hl] at hc
              simp only [Option.none_or, Option.some.injEq] at hc
              rw [← hc]
              exact (digit_facts _ (hd _ (List.getLast_mem hds))).2.2.2.2.2.2.2.2.2.2.2.2.2.2.1
          | some a =>
              rw [hl] at hc
              simp only [Option.some_or, Option.some.injEq] at hc
              rw [← hc]; exact text_last (text_untab ht) a hl
      have hnum : lineNumber 0 (ds ++ cs.map untab) = .ok (decimal ds, cs.map untab) := by
        have := lineNumber_eq (rest := cs.map untab) 0 hd ?_ (by simpa using hm)
        · simpa using this
        · intro c hc
          rw [List.head?_map] at hc
          obtain ⟨a, ha', rfl⟩ := Option.map_eq_some_iff.mp hc
          rcases untab_cases a with h4 | h4
          · rw [h4]; decide
          · rw [h4]; exact hn a ha'
      unfold inputLine
      rw [htrim, hnum]
      change (parse (cs.map untab)).bind _ = _
      rw [parse_text_eq (text_untab ht), if_pos (balanced_iff.mp hb)]
      simp only [Res.bind]
      rw [if_neg (by omega)]

theorem lex_spaces {l : List Char} (h : ∀ c ∈ l, Sp c) (n : Nat) : lex (n + 1) l = .ok [] := by
  have h2 := dropWhile_rest (p := (· == ' ')) (w := l) (rest := [])
    (fun c hc => by simp [show c = ' ' from h c hc]) (fun c hc => by simp at hc)
  rw [List.append_nil] at h2
  unfold lex
  rw [h2]

/-- An empty line changes nothing. -/
theorem inputLine_blank {l : List Char} (h : ∀ c ∈ l, Blank c) (prog : List Line) :
    inputLine l prog = .ok prog := by
  have h1 := untab_blank h
  have h2 : trimmed (l.map untab) = l.map untab := by
    unfold trimmed
    rw [if_pos]
    rw [List.all_eq_true]
    exact blank_space h
  have h3 : lineNumber 0 (l.map untab) = .ok (0, l.map untab) := by
    cases hl : l.map untab with
    | nil => rfl
    | cons c r =>
        have : c = ' ' := h1 c (by rw [hl]; simp)
        subst this
        rfl
  unfold inputLine
  rw [h2, h3]
  change (parse (l.map untab)).bind _ = _
  unfold parse
  rw [lex_spaces h1]
  rfl

/-! ## The program -/

theorem isBreak_false {c : Char} (h1 : c ≠ ';') (h2 : c ≠ '\n') : isBreak c = false := by
  simp [isBreak, h1, h2]

theorem blank_noBreak {c : Char} (h : Blank c) : (!isBreak c) = true := by
  rcases h with rfl | rfl | rfl <;> decide

theorem lineText_ne {n : Nat} {ts : List Tok} {l : List Char} (h : LineText n ts l) : l ≠ [] := by
  cases h with
  | @mk lead ds cs trail ts h1 h2 hd hp hm hn ht hb =>
      have hds : ds ≠ [] := by rintro rfl; simp [decimal] at hp
      simp [hds]

theorem compileLines_step {l cs : List Char} {b : Char} (hl : ∀ c ∈ l, (!isBreak c) = true)
    (hb : b = ';' ∨ b = '\n') (n : Nat) (prog : List Line) :
    compileLines (n + 1) (l ++ b :: cs) prog
      = (inputLine l prog).bind fun p => compileLines n cs p := by
  have hb' : ∀ c, (b :: cs).head? = some c → (!isBreak c) = false := by
    intro c hc
    simp only [List.head?_cons, Option.some.injEq] at hc
    subst hc
    rcases hb with rfl | rfl <;> decide
  conv_lhs => unfold compileLines
  rw [if_neg (by simp), takeWhile_rest hl hb', dropWhile_rest hl hb']
  rfl

/-- The program of a text is made of its lines, one after the other. -/
theorem compileLines_eq {es : List (Nat × List Tok)} {cs : List Char} (h : ProgText es cs) :
    ∀ (n : Nat) (prog : List Line), cs.length < n →
      compileLines n cs prog = .ok (es.foldl (fun p e => enter e.1 e.2 p) prog) := by
  induction h with
  | done =>
      intro n prog hn
      obtain ⟨m, rfl⟩ : ∃ m, n = m + 1 := ⟨n - 1, by omega⟩
      simp [compileLines]
  | @last k ts l h hb =>
      intro n prog hn
      have hne := lineText_ne h
      have hpos := List.length_pos_iff.mpr hne
      obtain ⟨m, rfl⟩ : ∃ m, n = m + 1 + 1 := ⟨n - 2, by omega⟩
      have hl : ∀ c ∈ l, (!isBreak c) = true := fun c hc => by
        rw [isBreak_false (hb c hc).1 (hb c hc).2]; rfl
      have e1 := takeWhile_rest (rest := []) hl (fun c hc => by simp at hc)
      have e2 := dropWhile_rest (rest := []) hl (fun c hc => by simp at hc)
      rw [List.append_nil] at e1 e2
      conv_lhs => unfold compileLines
      rw [if_neg hne, e1, e2, inputLine_eq h]
      simp [Res.bind, compileLines]
  | @empty es l cs b h he hr ih =>
      intro n prog hn
      obtain ⟨m, rfl⟩ : ∃ m, n = m + 1 := ⟨n - 1, by omega⟩
      rw [compileLines_step (fun c hc => blank_noBreak (h c hc)) he, inputLine_blank h]
      refine ih m prog ?_
      simp only [List.length_append, List.length_cons] at hn
      omega
  | @line k ts es l cs b h hb he hr ih =>
      intro n prog hn
      obtain ⟨m, rfl⟩ : ∃ m, n = m + 1 := ⟨n - 1, by omega⟩
      have hl : ∀ c ∈ l, (!isBreak c) = true := fun c hc => by
        rw [isBreak_false (hb c hc).1 (hb c hc).2]; rfl
      rw [compileLines_step hl he, inputLine_eq h]
      refine ih m _ ?_
      simp only [List.length_append, List.length_cons] at hn
      omega

/-- Lines in the order of their numbers are the program. -/
theorem enter_increasing : ∀ (ls pre : List Line), (∀ l ∈ ls, l.txt ≠ []) →
    (pre ++ ls).Pairwise (fun a b => a.num < b.num) →
    (ls.map fun l => (l.num, l.txt)).foldl (fun p e => enter e.1 e.2 p) pre = pre ++ ls
  | [], pre, _, _ => by simp
  | l :: ls, pre, h, hp => by
      have h1 : enter l.num l.txt pre = pre ++ [l] := by
        have : ∀ x ∈ pre, x.num < l.num := fun x hx =>
          (List.pairwise_append.mp hp).2.2 x hx l (by simp)
        clear hp
        induction pre with
        | nil => simp [enter, h l (by simp)]
        | cons a pre ih =>
            have ha := this a (by simp)
            unfold enter
            rw [if_pos ha, ih fun x hx => this x (List.mem_cons_of_mem _ hx)]
            rfl
      rw [List.map_cons, List.foldl_cons]
      dsimp only
      rw [h1, enter_increasing ls (pre ++ [l]) (fun x hx => h x (List.mem_cons_of_mem _ hx))
        (by simpa using hp)]
      simp

end Verif.Pbasic
