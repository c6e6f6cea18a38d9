import Verif.Input.Spec

/-!
# Lemmas about reading input
-/

namespace Verif.Input

open Verif.Input.Spec

/-- A line as its reader gets it. -/
def asLine (m : Text) : Line := ⟨kindOf m, m⟩

theorem mem_white (c : Char) : c ∈ white ↔ isSpace c = true := by
  simp [white, isSpace, or_assoc]

theorem not_white (c : Char) : c ∉ white ↔ isSpace c = false := by
  rw [mem_white]; simp

/-! ## Scanning the parts of a text -/

theorem scan_blanks (p t w : Text) (hw : Blanks w) (hs : '\\' ∉ w) (r : Text) :
    scan (.back p t) (w ++ r) = scan (.back p (t ++ w)) r := by
  induction w generalizing t with
  | nil => simp
  | cons c w ih =>
    have hc := hw c (by simp)
    have h1 : c ≠ '\\' := fun h => hs (by simp [h])
    rw [List.cons_append, scan, if_neg h1, if_neg hc.2, if_pos ((mem_white c).mp hc.1),
      ih _ (fun x hx => hw x (by simp [hx])) (fun h => hs (by simp [h]))]
    simp

theorem blanks_slash {w : Text} (hw : Blanks w) : '\\' ∉ w := by
  intro h
  have := (hw _ h).1
  revert this
  decide

theorem scan_slash (s w : Text) (hw : Blanks w) (r : Text) :
    scan (.plain s) ('\\' :: w ++ r) = scan (.back s ('\\' :: w)) r := by
  rw [List.cons_append, scan, if_neg (by decide), if_neg (by decide), if_neg (by decide),
    if_pos rfl, scan_blanks s ['\\'] w hw (blanks_slash hw)]
  rfl

theorem scan_comment (s b : Text) (l : Char) (hb : '\n' ∉ b) (r : Text) :
    scan (.comment s l) (b ++ '\n' :: r) = (s ++ b, false, r) := by
  induction b generalizing s l with
  | nil => simp [scan]
  | cons c b ih =>
    have hc : c ≠ '\n' := fun h => hb (by simp [h])
    rw [List.cons_append, scan, if_neg hc, ih _ _ (fun h => hb (by simp [h]))]
    simp

theorem scan_comment_end (s b : Text) (l : Char) (hb : '\n' ∉ b) :
    ∃ x, scan (.comment s l) b = (s ++ x, true, []) := by
  induction b generalizing s l with
  | nil =>
    rw [scan]
    split_ifs
    · exact ⟨[], by simp⟩
    · exact ⟨[l], rfl⟩
  | cons c b ih =>
    have hc : c ≠ '\n' := fun h => hb (by simp [h])
    rw [scan, if_neg hc]
    obtain ⟨x, hx⟩ := ih (s ++ [c]) c (fun h => hb (by simp [h]))
    exact ⟨c :: x, by rw [hx]; simp⟩

theorem takeWhile_hash (s : Text) (h : '#' ∉ s) : s.takeWhile (· ≠ '#') = s := by
  induction s with
  | nil => rfl
  | cons c s ih =>
    have hc : c ≠ '#' := fun he => h (by simp [he])
    rw [List.takeWhile_cons_of_pos (by simpa using hc), ih (fun hm => h (by simp [hm]))]

theorem cut_hash (s x : Text) (h : '#' ∉ s) : cut (s ++ '#' :: x) = s := by
  unfold cut
  rw [List.takeWhile_append]
  rw [takeWhile_hash s h]
  simp

theorem cut_self (s : Text) (h : '#' ∉ s) : cut s = s := by
  exact takeWhile_hash s h

theorem blanks_hash {w : Text} (hw : Blanks w) : '#' ∉ w := by
  intro h
  have := (hw _ h).1
  revert this
  decide

theorem text_cons (b : Bit) (bs : List Bit) (e : Rest) : text (b :: bs) e = b.text ++ text bs e := by
  simp [text]

theorem ok_cons {b : Bit} {bs : List Bit} {e : Rest} (h : Ok (b :: bs) e) : b.Ok ∧ Ok bs e := by
  cases b <;> first | exact h | exact ⟨h.1, h.2.1⟩

theorem slash_text {bs : List Bit} {e : Rest}
    (h : match bs with
      | [] => e.slash = true
      | b :: _ => b.slash = true) : ∃ r, text bs e = '\\' :: r := by
  cases bs with
  | nil =>
    cases e <;> simp [Rest.slash] at h
    exact ⟨_, rfl⟩
  | cons b bs =>
    rw [text_cons]
    cases b <;> simp [Bit.slash] at h <;> exact ⟨_, rfl⟩

theorem clear_cons {b : Bit} {bs : List Bit} (h : Clear (b :: bs)) : Clear bs :=
  fun w c hm => h w c (by simp [hm])

/-- One logical line of a text in parts. -/
theorem scan_pieces (bs : List Bit) (e : Rest) (s : Text) (hok : Ok bs e) (hcl : Clear bs)
    (hs : '#' ∉ s) :
    (∃ save bs', scan (.plain s) (text bs e) = (save, false, text bs' e) ∧
      bs'.length < bs.length ∧ Ok bs' e ∧ Clear bs' ∧
      pieces s bs e = cut save :: pieces [] bs' e) ∨
    (∃ save, scan (.plain s) (text bs e) = (save, true, []) ∧ pieces s bs e = [cut save]) := by
  induction bs generalizing s with
  | nil =>
    refine Or.inr ?_
    cases e with
    | none => exact ⟨s, rfl, by rw [cut_self s hs]; rfl⟩
    | comment b =>
      obtain ⟨x, hx⟩ := scan_comment_end (s ++ ['#']) b '#' hok
      refine ⟨s ++ ['#'] ++ x, ?_, ?_⟩
      · show scan (.plain s) ('#' :: b) = _
        rw [scan, if_pos rfl, hx]
      · rw [List.append_assoc]
        show _ = [cut (s ++ '#' :: x)]
        rw [cut_hash s x hs]
        rfl
    | back w =>
      refine ⟨s ++ '\\' :: w, ?_, ?_⟩
      · have := scan_slash s w hok []
        rw [List.append_nil] at this
        exact this
      · rw [cut_self]
        · rfl
        · intro h
          rcases List.mem_append.mp h with h | h
          · exact hs h
          · rcases List.mem_cons.mp h with h | h
            · exact absurd h (by decide)
            · exact blanks_hash hok h
  | cons b bs ih =>
    have ho := ok_cons hok
    have hc := clear_cons hcl
    have lift : ∀ s', '#' ∉ s' → scan (.plain s) (text (b :: bs) e) = scan (.plain s') (text bs e) →
        pieces s (b :: bs) e = pieces s' bs e →
        ((∃ save bs', scan (.plain s) (text (b :: bs) e) = (save, false, text bs' e) ∧
          bs'.length < (b :: bs).length ∧ Ok bs' e ∧ Clear bs' ∧
          pieces s (b :: bs) e = cut save :: pieces [] bs' e) ∨
        (∃ save, scan (.plain s) (text (b :: bs) e) = (save, true, []) ∧
          pieces s (b :: bs) e = [cut save])) := by
      intro s' hs' h1 h2
      rw [h1, h2]
      rcases ih s' ho.2 hc hs' with ⟨save, bs', ha, hb, hd⟩ | h
      · exact Or.inl ⟨save, bs', ha, by simp only [List.length_cons]; omega, hd⟩
      · exact Or.inr h
    cases b with
    | chr c =>
      obtain ⟨c1, c2, c3, c4⟩ := ho.1
      refine lift (s ++ [c]) ?_ ?_ rfl
      · intro h
        rcases List.mem_append.mp h with h | h
        · exact hs h
        · exact c1 (List.mem_singleton.mp h).symm
      · show scan (.plain s) (c :: text bs e) = _
        rw [scan, if_neg c1, if_neg c2, if_neg c3, if_neg c4]
    | stop semi =>
      refine Or.inl ⟨s, bs, ?_, by simp, ho.2, hc, ?_⟩
      · cases semi
        · show scan (.plain s) ('\n' :: text bs e) = _
          rw [scan, if_neg (by decide), if_neg (by decide), if_pos rfl]
        · show scan (.plain s) (';' :: text bs e) = _
          rw [scan, if_neg (by decide), if_pos rfl]
      · rw [cut_self s hs]; rfl
    | comment body =>
      refine Or.inl ⟨s ++ '#' :: body, bs, ?_, by simp, ho.2, hc, ?_⟩
      · rw [text_cons]
        show scan (.plain s) ('#' :: body ++ ['\n'] ++ text bs e) = _
        rw [List.cons_append, List.cons_append, scan, if_pos rfl, List.append_assoc]
        show scan _ (body ++ '\n' :: text bs e) = _
        rw [scan_comment _ _ _ ho.1]
        simp
      · rw [cut_hash s body hs]; rfl
    | cont w =>
      refine lift s hs ?_ ?_
      · rw [text_cons]
        show scan (.plain s) ('\\' :: w ++ ['\n'] ++ text bs e) = _
        rw [List.append_assoc, scan_slash s w ho.1]
        show scan _ ('\n' :: text bs e) = _
        rw [scan, if_neg (by decide), if_pos rfl]
      · show pieces (s ++ []) bs e = _
        rw [List.append_nil]
    | lit w c =>
      obtain ⟨l1, l2, l3⟩ := ho.1
      have l4 : c ≠ '\n' := fun h => by rw [h] at l2; exact absurd l2 (by decide)
      have l5 := hcl w c (by simp)
      refine lift (s ++ ('\\' :: w ++ [c])) ?_ ?_ rfl
      · intro h
        rcases List.mem_append.mp h with h | h
        · exact hs h
        · rcases List.mem_append.mp h with h | h
          · rcases List.mem_cons.mp h with h | h
            · exact absurd h (by decide)
            · exact blanks_hash l1 h
          · exact l5.1 (List.mem_singleton.mp h).symm
      · rw [text_cons]
        show scan (.plain s) ('\\' :: w ++ [c] ++ text bs e) = _
        rw [List.append_assoc, scan_slash s w l1]
        show scan _ (c :: text bs e) = _
        rw [scan, if_neg l3, if_neg l4, if_neg (by rw [(not_white c).mp l2]; decide)]
        simp
    | back w =>
      obtain ⟨b1, b2, b3⟩ := hok
      refine lift (s ++ '\\' :: w) ?_ ?_ rfl
      · intro h
        rcases List.mem_append.mp h with h | h
        · exact hs h
        · rcases List.mem_cons.mp h with h | h
          · exact absurd h (by decide)
          · exact blanks_hash b1 h
      · obtain ⟨r, hr⟩ := slash_text b3
        rw [text_cons, hr]
        show scan (.plain s) ('\\' :: w ++ '\\' :: r) = _
        rw [scan_slash s w b1]
        conv_lhs => rw [scan, if_pos rfl]
        conv_rhs => rw [scan, if_neg (by decide), if_neg (by decide), if_neg (by decide), if_pos rfl]

/-! ## Reading -/

theorem reads_det {fs : Text → Option Text} {st : List Text} {ls ls' : List Line} {e e' : End}
    (h : Reads fs st ls e) (h' : Reads fs st ls' e') : ls = ls' ∧ e = e' := by
  induction h generalizing ls' with
  | eof h => cases h' <;> simp_all
  | fail h => cases h' <;> simp_all
  | more h _ ih =>
    cases h' with
    | more h2 hr2 => rw [h] at h2; cases h2; exact ih hr2
    | eof h2 => rw [h] at h2; cases h2
    | fail h2 => rw [h] at h2; cases h2
    | line h2 _ => rw [h] at h2; cases h2
  | line h _ ih =>
    cases h' with
    | line h2 hr2 => rw [h] at h2; cases h2; obtain ⟨a, b⟩ := ih hr2; exact ⟨by rw [a], b⟩
    | eof h2 => rw [h] at h2; cases h2
    | fail h2 => rw [h] at h2; cases h2
    | more h2 _ => rw [h] at h2; cases h2

theorem filled_cons (l : Text) (ls : List Text) :
    filled (l :: ls) = if blank l then filled ls else l :: filled ls := by
  have : blank l = !l.any (fun c => decide (c ∉ white)) := by
    unfold blank
    induction l with
    | nil => rfl
    | cons c l ih =>
      rw [List.all_cons, List.any_cons, ih]
      cases h : isSpace c
      · simp [(not_white c).mpr h]
      · simp [(mem_white c).mpr h]
  unfold filled
  rw [this]
  cases h : l.any (fun c => decide (c ∉ white)) with
  | false => rw [List.filter_cons_of_neg (by simp only [h]; decide)]; simp
  | true => rw [List.filter_cons_of_pos (by simp only [h])]; simp

/-- The next line of a text that is not empty, in front of the other streams. -/
theorem next (fs : Text → Option Text) (n : Nat) (bs : List Bit) (e : Rest) (hn : bs.length ≤ n)
    (hok : Ok bs e) (hcl : Clear bs) :
    (filled (pieces [] bs e) = [] ∧
      ∀ st ls en, Reads fs st ls en → Reads fs (text bs e :: st) ls en) ∨
    ∃ m rest bs' e', filled (pieces [] bs e) = m :: rest ∧ Ok bs' e' ∧ Clear bs' ∧
      filled (pieces [] bs' e') = rest ∧
      (includeName m = none → ∀ st ls en, Reads fs (text bs' e' :: st) ls en →
        Reads fs (text bs e :: st) (asLine m :: ls) en) ∧
      (∀ f u, includeName m = some f → fs f = some u → ∀ st ls en,
        Reads fs (chars u :: text bs' e' :: st) ls en → Reads fs (text bs e :: st) ls en) ∧
      (∀ f, includeName m = some f → fs f = none → ∀ st, Reads fs (text bs e :: st) [] (.fail f)) := by
  have found : ∀ save bs' e', logical (text bs e) = some (save, text bs' e') →
      blank (cut save) = false →
      (includeName (cut save) = none → ∀ st ls en, Reads fs (text bs' e' :: st) ls en →
        Reads fs (text bs e :: st) (asLine (cut save) :: ls) en) ∧
      (∀ f u, includeName (cut save) = some f → fs f = some u → ∀ st ls en,
        Reads fs (chars u :: text bs' e' :: st) ls en → Reads fs (text bs e :: st) ls en) ∧
      (∀ f, includeName (cut save) = some f → fs f = none → ∀ st,
        Reads fs (text bs e :: st) [] (.fail f)) := by
    intro save bs' e' hlog hb
    refine ⟨fun hi st ls en hr => ?_, fun f u hi hf st ls en hr => ?_, fun f hi hf st => ?_⟩
    · exact Reads.line (st' := text bs' e' :: st) (by simp [turn, hlog, hb, hi, asLine]) hr
    · exact Reads.more (st' := chars u :: text bs' e' :: st) (by simp [turn, hlog, hb, hi, hf]) hr
    · exact Reads.fail (by simp [turn, hlog, hb, hi, hf])
  induction n generalizing bs with
  | zero =>
    have : bs = [] := List.length_eq_zero_iff.mp (by omega)
    subst this
    rcases scan_pieces [] e [] hok hcl (by simp) with ⟨_, bs', _, hl, _⟩ | ⟨save, hsc, hp⟩
    · simp at hl
    · exact last_piece fs [] e save hsc hp found
  | succ n ih =>
    rcases scan_pieces bs e [] hok hcl (by simp) with ⟨save, bs', hsc, hl, ho', hc', hp⟩ |
      ⟨save, hsc, hp⟩
    · have hlog : logical (text bs e) = some (save, text bs' e) := by
        unfold logical; simp [hsc]
      rw [hp, filled_cons]
      cases hb : blank (cut save) with
      | false =>
        exact Or.inr ⟨cut save, filled (pieces [] bs' e), bs', e, rfl, ho', hc', rfl,
          found save bs' e hlog hb⟩
      | true =>
        have hstep : ∀ st, turn fs (text bs e :: st) = .more (text bs' e :: st) := by
          intro st; simp [turn, hlog, hb]
        have found' : ∀ save1 bs1 e1, logical (text bs' e) = some (save1, text bs1 e1) →
            blank (cut save1) = false →
            (includeName (cut save1) = none → ∀ st ls en, Reads fs (text bs1 e1 :: st) ls en →
              Reads fs (text bs' e :: st) (asLine (cut save1) :: ls) en) ∧
            (∀ f u, includeName (cut save1) = some f → fs f = some u → ∀ st ls en,
              Reads fs (chars u :: text bs1 e1 :: st) ls en → Reads fs (text bs' e :: st) ls en) ∧
            (∀ f, includeName (cut save1) = some f → fs f = none → ∀ st,
              Reads fs (text bs' e :: st) [] (.fail f)) := by
          intro save1 bs1 e1 hlog1 hb1
          refine ⟨fun hi st ls en hr => ?_, fun f u hi hf st ls en hr => ?_, fun f hi hf st => ?_⟩
          · exact Reads.line (st' := text bs1 e1 :: st) (by simp [turn, hlog1, hb1, hi, asLine]) hr
          · exact Reads.more (st' := chars u :: text bs1 e1 :: st)
              (by simp [turn, hlog1, hb1, hi, hf]) hr
          · exact Reads.fail (by simp [turn, hlog1, hb1, hi, hf])
        rcases ih bs' (by omega) ho' hc' found' with ⟨h1, h2⟩ |
          ⟨m, rest, bs2, e2, h1, h2, h3, h4, h5, h6, h7⟩
        · exact Or.inl ⟨h1, fun st ls en hr => Reads.more (hstep st) (h2 st ls en hr)⟩
        · exact Or.inr ⟨m, rest, bs2, e2, h1, h2, h3, h4,
            fun hi st ls en hr => Reads.more (hstep st) (h5 hi st ls en hr),
            fun f u hi hf st ls en hr => Reads.more (hstep st) (h6 f u hi hf st ls en hr),
            fun f hi hf st => Reads.more (hstep st) (h7 f hi hf st)⟩
    · exact last_piece fs bs e save hsc hp found
where
  last_piece (fs : Text → Option Text) (bs : List Bit) (e : Rest) (save : Text)
      (hsc : scan (.plain []) (text bs e) = (save, true, [])) (hp : pieces [] bs e = [cut save])
      (found : ∀ save bs' e', logical (text bs e) = some (save, text bs' e') →
        blank (cut save) = false →
        (includeName (cut save) = none → ∀ st ls en, Reads fs (text bs' e' :: st) ls en →
          Reads fs (text bs e :: st) (asLine (cut save) :: ls) en) ∧
        (∀ f u, includeName (cut save) = some f → fs f = some u → ∀ st ls en,
          Reads fs (chars u :: text bs' e' :: st) ls en → Reads fs (text bs e :: st) ls en) ∧
        (∀ f, includeName (cut save) = some f → fs f = none → ∀ st,
          Reads fs (text bs e :: st) [] (.fail f))) :
      (filled (pieces [] bs e) = [] ∧
        ∀ st ls en, Reads fs st ls en → Reads fs (text bs e :: st) ls en) ∨
      ∃ m rest bs' e', filled (pieces [] bs e) = m :: rest ∧ Ok bs' e' ∧ Clear bs' ∧
        filled (pieces [] bs' e') = rest ∧
        (includeName m = none → ∀ st ls en, Reads fs (text bs' e' :: st) ls en →
          Reads fs (text bs e :: st) (asLine m :: ls) en) ∧
        (∀ f u, includeName m = some f → fs f = some u → ∀ st ls en,
          Reads fs (chars u :: text bs' e' :: st) ls en → Reads fs (text bs e :: st) ls en) ∧
        (∀ f, includeName m = some f → fs f = none → ∀ st,
          Reads fs (text bs e :: st) [] (.fail f)) := by
    rw [hp, filled_cons]
    have hnil : logical [] = none := by simp [logical, scan]
    cases hb : blank (cut save) with
    | false =>
      have hne : save ≠ [] := by
        intro h; subst h; simp [cut, blank] at hb
      have hlog : logical (text bs e) = some (save, text [] .none) := by
        unfold logical
        dsimp only
        rw [hsc]
        dsimp only
        rw [if_neg (fun h => hne h.2)]
        rfl
      refine Or.inr ⟨cut save, [], [], .none, by rw [if_neg (by simp)]; simp [filled], trivial,
        fun w c h => by simp at h, by simp [pieces, filled], found save [] .none hlog hb⟩
    | true =>
      refine Or.inl ⟨by simp [filled], fun st ls en hr => ?_⟩
      by_cases hne : save = []
      · exact Reads.more (st' := st) (by simp [turn, logical, hsc, hne]) hr
      · refine Reads.more (st' := [] :: st) (by simp [turn, logical, hsc, hne, hb]) ?_
        exact Reads.more (st' := st) (by simp [turn, hnil]) hr

/-! ## Carriage returns -/

theorem chars_crlf (r : Text) : chars ('\r' :: '\n' :: r) = '\n' :: chars r := by rw [chars]

theorem chars_cons (c : Char) (r : Text) (h : ¬ (c = '\r' ∧ ∃ x, r = '\n' :: x)) :
    chars (c :: r) = c :: chars r := by
  rw [chars]
  intro x hc hr
  exact h ⟨hc, x, hr⟩

theorem unix_chars {a b : Text} (h : Unix a b) : chars a = b := by
  induction h with
  | nil => rw [chars]
  | crlf _ ih => rw [chars_crlf, ih]
  | chr hc _ ih => rw [chars_cons _ _ hc, ih]

theorem chars_unix (n : Nat) : ∀ a : Text, a.length ≤ n → Unix a (chars a) := by
  induction n with
  | zero =>
    intro a ha
    rw [List.length_eq_zero_iff.mp (by omega : a.length = 0), chars]
    exact .nil
  | succ n ih =>
    intro a ha
    cases a with
    | nil => rw [chars]; exact .nil
    | cons c a =>
      simp only [List.length_cons] at ha
      by_cases h : c = '\r' ∧ ∃ x, a = '\n' :: x
      · obtain ⟨rfl, x, rfl⟩ := h
        rw [chars_crlf]
        exact .crlf (ih x (by simp only [List.length_cons] at ha; omega))
      · rw [chars_cons c a h]
        exact .chr h (ih a (by omega))

theorem unix_self {t : Text} (h : '\r' ∉ t) : Unix t t := by
  induction t with
  | nil => exact .nil
  | cons c t ih =>
    exact .chr (fun hc => h (by simp [hc.1])) (ih (fun hm => h (by simp [hm])))

theorem unix_dos {t : Text} (h : '\r' ∉ t) : Unix (dos t) t := by
  induction t with
  | nil => exact .nil
  | cons c t ih =>
    have ih := ih (fun hm => h (by simp [hm]))
    unfold dos at ih ⊢
    rw [List.flatMap_cons]
    by_cases hc : c = '\n'
    · subst hc
      exact .crlf ih
    · rw [if_neg hc]
      exact .chr (fun hr => h (by simp [hr.1])) ih

/-! ## The first word -/

theorem takeWhile_all {p : Char → Bool} {l : Text} (h : ∀ c ∈ l, p c = true) (r : Text) :
    (l ++ r).takeWhile p = l ++ r.takeWhile p := by
  induction l with
  | nil => rfl
  | cons c l ih =>
    rw [List.cons_append, List.takeWhile_cons_of_pos (h c (by simp)),
      ih (fun x hx => h x (by simp [hx]))]
    rfl

theorem dropWhile_all {p : Char → Bool} {l : Text} (h : ∀ c ∈ l, p c = true) (r : Text) :
    (l ++ r).dropWhile p = r.dropWhile p := by
  induction l with
  | nil => rfl
  | cons c l ih =>
    rw [List.cons_append, List.dropWhile_cons_of_pos (h c (by simp)),
      ih (fun x hx => h x (by simp [hx]))]

theorem mem_takeWhile {p : Char → Bool} {l : Text} : ∀ c ∈ l.takeWhile p, p c = true := by
  induction l with
  | nil => simp
  | cons a l ih =>
    intro c hc
    cases h : p a with
    | false => rw [List.takeWhile_cons_of_neg (by simp [h])] at hc; simp at hc
    | true =>
      rw [List.takeWhile_cons_of_pos h] at hc
      rcases List.mem_cons.mp hc with rfl | hc
      · exact h
      · exact ih c hc

theorem dropWhile_head {p : Char → Bool} {l : Text} {c : Char} {r : Text}
    (h : l.dropWhile p = c :: r) : p c = false := by
  induction l with
  | nil => simp at h
  | cons a l ih =>
    cases hp : p a with
    | true => rw [List.dropWhile_cons_of_pos hp] at h; exact ih h
    | false =>
      rw [List.dropWhile_cons_of_neg (by simp [hp])] at h
      rw [← (List.cons.inj h).1]; exact hp

theorem token_of_first {m w r : Text} (h : FirstWord m w r) : token m = (w, r) := by
  obtain ⟨b, hb, rfl, ⟨hne, hw⟩, hr⟩ := h
  have h1 : (b ++ w ++ r).dropWhile isSpace = w ++ r := by
    rw [List.append_assoc, dropWhile_all (fun c hc => (mem_white c).mp (hb c hc))]
    cases w with
    | nil => exact absurd rfl hne
    | cons c w =>
      have := (not_white c).mp (hw c (by simp))
      rw [List.cons_append, List.dropWhile_cons_of_neg (by simp [this])]
  have hw' : ∀ c ∈ w, (!isSpace c) = true := fun c hc => by simp [(not_white c).mp (hw c hc)]
  unfold token
  rw [h1]
  dsimp only
  rw [takeWhile_all hw', dropWhile_all hw']
  cases r with
  | nil => simp
  | cons c r =>
    have := (mem_white c).mp (hr c r rfl)
    rw [List.takeWhile_cons_of_neg (by simp [this]), List.dropWhile_cons_of_neg (by simp [this])]
    simp

theorem first_of_token {m : Text} (h : (token m).1 ≠ []) :
    FirstWord m (token m).1 (token m).2 := by
  refine ⟨m.takeWhile isSpace, fun c hc => (mem_white c).mpr (mem_takeWhile c hc), ?_,
    ⟨h, fun c hc => ?_⟩, fun c r' hr => ?_⟩
  · unfold token
    rw [List.append_assoc, List.takeWhile_append_dropWhile, List.takeWhile_append_dropWhile]
  · have := mem_takeWhile c hc
    exact (not_white c).mpr (by simpa using this)
  · have := dropWhile_head hr
    exact (mem_white c).mpr (by simpa using this)

theorem isKey_iff (m : Text) : IsKey m ↔ Raw.isKeyword (token m).1 = true := by
  unfold Raw.isKeyword
  rw [List.contains_iff_mem]
  constructor
  · rintro ⟨w, r, hf, hk⟩
    rw [token_of_first hf]
    exact hk
  · intro h
    refine ⟨_, _, first_of_token (fun he => ?_), h⟩
    rw [he] at h
    revert h
    decide

theorem isOpt_iff (m : Text) : IsOpt m ↔ Raw.isOption (token m).1 = true := by
  constructor
  · rintro ⟨a, x, r, hf, ha⟩
    rw [token_of_first hf]
    exact ha
  · intro h
    have hf := first_of_token (m := m) (fun he => by rw [he] at h; exact absurd h (by decide))
    generalize (token m).1 = w at h hf
    match w, h, hf with
    | [], h, _ => exact absurd h (by decide)
    | [c], h, _ => simp [Raw.isOption] at h
    | c :: a :: x, h, hf =>
      by_cases hc : c = '-'
      · subst hc; exact ⟨a, x, _, hf, h⟩
      · unfold Raw.isOption at h
        split at h
        · rename_i heq; exact absurd (List.cons.inj heq).1 hc
        · exact absurd h (by decide)

theorem asLine_fits (m : Text) : Fits (asLine m) := by
  unfold Fits asLine kindOf
  dsimp only
  rw [isKey_iff, isOpt_iff]
  cases Raw.isKeyword (token m).1 <;> cases Raw.isOption (token m).1 <;> simp

theorem fits_asLine {l : Line} (h : Fits l) : l = asLine l.text := by
  obtain ⟨k, t⟩ := l
  obtain ⟨h1, h2⟩ := h
  dsimp only at h1 h2
  unfold asLine kindOf
  rw [isKey_iff] at h1 h2
  rw [isOpt_iff] at h2
  cases k <;> cases hk : Raw.isKeyword (token t).1 <;> cases ho : Raw.isOption (token t).1 <;>
    simp_all

/-! ## Include lines -/

theorem trim_spec {b f b' : Text} (hb : ∀ c ∈ b, c ∈ white) (hb' : ∀ c ∈ b', c ∈ white)
    (h1 : ∃ c x, f = c :: x ∧ c ∉ white) (h2 : ∃ c x, f = x ++ [c] ∧ c ∉ white) :
    trim (b ++ f ++ b') = f := by
  obtain ⟨c, x, hc, hcw⟩ := h1
  obtain ⟨d, y, hd, hdw⟩ := h2
  have e1 : ((b ++ f ++ b').reverse.dropWhile isSpace).reverse = b ++ f := by
    rw [List.reverse_append, dropWhile_all (fun a ha => (mem_white a).mp
      (hb' a (List.mem_reverse.mp ha))), hd, ← List.append_assoc, List.reverse_append]
    simp only [List.reverse_cons, List.reverse_nil, List.nil_append, List.singleton_append]
    rw [List.dropWhile_cons_of_neg (by simp [(not_white d).mp hdw])]
    simp
  unfold trim
  rw [e1, dropWhile_all (fun a ha => (mem_white a).mp (hb a ha)), hc,
    List.dropWhile_cons_of_neg (by simp [(not_white c).mp hcw])]

theorem trim_parts (t : Text) : ∃ b b', t = b ++ trim t ++ b' ∧ (∀ c ∈ b, c ∈ white) ∧
    (∀ c ∈ b', c ∈ white) ∧ (trim t ≠ [] → (∃ c x, trim t = c :: x ∧ c ∉ white) ∧
      ∃ c x, trim t = x ++ [c] ∧ c ∉ white) := by
  have h1 : t = (t.reverse.dropWhile isSpace).reverse ++ (t.reverse.takeWhile isSpace).reverse := by
    rw [← List.reverse_append, List.takeWhile_append_dropWhile, List.reverse_reverse]
  have h0 : ∀ c x, t.reverse.dropWhile isSpace = c :: x → c ∉ white := fun c x h =>
    (not_white c).mpr (dropWhile_head h)
  unfold trim
  generalize t.reverse.dropWhile isSpace = q at h1 h0 ⊢
  have h2 : q.reverse = q.reverse.takeWhile isSpace ++ q.reverse.dropWhile isSpace :=
    List.takeWhile_append_dropWhile.symm
  refine ⟨q.reverse.takeWhile isSpace, (t.reverse.takeWhile isSpace).reverse, ?_,
    fun c hc => (mem_white c).mpr (mem_takeWhile c hc),
    fun c hc => (mem_white c).mpr (mem_takeWhile c (List.mem_reverse.mp hc)), fun hne => ?_⟩
  · rw [← h2]; exact h1
  · refine ⟨?_, ?_⟩
    · cases hd : q.reverse.dropWhile isSpace with
      | nil => exact absurd hd hne
      | cons c x => exact ⟨c, x, rfl, (not_white c).mpr (dropWhile_head hd)⟩
    · cases q with
      | nil => simp at hne
      | cons c x =>
        generalize hd : (c :: x).reverse.dropWhile isSpace = u at h2 hne
        obtain ⟨d, y, hy⟩ : ∃ d y, u = y ++ [d] :=
          ⟨u.getLast hne, u.dropLast, (List.dropLast_append_getLast hne).symm⟩
        refine ⟨d, y, hy, ?_⟩
        rw [hy, List.reverse_cons, ← List.append_assoc] at h2
        have := (List.append_inj' h2 rfl).2
        rw [← List.singleton_inj.mp this]
        exact h0 c x rfl

theorem prefix_iff (p w : Text) : p.isPrefixOf w = true ↔ ∃ x, w = p ++ x := by
  rw [List.isPrefixOf_iff_prefix]
  constructor
  · rintro ⟨x, h⟩; exact ⟨x, h.symm⟩
  · rintro ⟨x, h⟩; exact ⟨x, h.symm⟩

theorem begins_iff (p p' w : Text) : (p.isPrefixOf w || p'.isPrefixOf w) = true ↔
    ∃ x, w = p ++ x ∨ w = p' ++ x := by
  rw [Bool.or_eq_true, prefix_iff, prefix_iff]
  constructor
  · rintro (⟨x, h⟩ | ⟨x, h⟩)
    · exact ⟨x, Or.inl h⟩
    · exact ⟨x, Or.inr h⟩
  · rintro ⟨x, h | h⟩
    · exact Or.inl ⟨x, h⟩
    · exact Or.inr ⟨x, h⟩

theorem includes_iff (m f : Text) : Includes m f ↔ includeName m = some f := by
  unfold includeName
  generalize hp : "include$".toList = p
  generalize hp' : "include_file".toList = p'
  have hpn : p ≠ [] := by rw [← hp]; decide
  have hpn' : p' ≠ [] := by rw [← hp']; decide
  constructor
  · rintro ⟨w, b, b', hf, hw, hb, hb', h1, h2⟩
    rw [hp, hp'] at hw
    rw [token_of_first hf]
    dsimp only
    rw [if_pos ((begins_iff _ _ _).mpr hw), trim_spec hb hb' h1 h2, if_neg]
    obtain ⟨c, x, h, _⟩ := h1
    rw [h]; simp
  · intro h
    dsimp only at h
    split_ifs at h with hw hn
    have hw := (begins_iff _ _ _).mp hw
    have ht : (token m).1 ≠ [] := by
      intro he
      rw [he] at hw
      obtain ⟨x, hx | hx⟩ := hw
      · exact hpn (List.append_eq_nil_iff.mp hx.symm).1
      · exact hpn' (List.append_eq_nil_iff.mp hx.symm).1
    have hf := first_of_token ht
    obtain ⟨b, b', ht, hb, hb', hh⟩ := trim_parts (token m).2
    rw [Option.some.inj h] at ht hh hn
    obtain ⟨h1, h2⟩ := hh hn
    rw [ht] at hf
    refine ⟨_, b, b', hf, ?_, hb, hb', h1, h2⟩
    rw [hp, hp']
    exact hw

theorem not_includes_iff (m : Text) : (∀ f, ¬ Includes m f) ↔ includeName m = none := by
  constructor
  · intro h
    cases hi : includeName m with
    | none => rfl
    | some f => exact absurd ((includes_iff m f).mpr hi) (h f)
  · intro h f hf
    rw [(includes_iff m f).mp hf] at h
    exact absurd h (by simp)

/-- Reading a text is expanding its lines. -/
theorem reads_expand {fs : Text → Option Text} {ms out : List Text} {en : Option Text}
    (h : Expand fs ms out en) : ∀ bs e, Ok bs e → Clear bs → filled (pieces [] bs e) = ms →
    (en = none → ∀ st ls en', Reads fs st ls en' →
      Reads fs (text bs e :: st) (out.map asLine ++ ls) en') ∧
    (∀ g, en = some g → ∀ st, Reads fs (text bs e :: st) (out.map asLine) (.fail g)) := by
  induction h with
  | nil =>
    intro bs e hok hcl hp
    rcases next fs _ bs e le_rfl hok hcl with ⟨_, h2⟩ | ⟨m, rest, _, _, h1, _⟩
    · exact ⟨fun _ st ls en' hr => h2 st ls en' hr, fun g hg => by simp at hg⟩
    · rw [hp] at h1; simp at h1
  | @line m ls out en hi0 _ ih =>
    intro bs e hok hcl hp
    have hi := (not_includes_iff m).mp hi0
    rcases next fs _ bs e le_rfl hok hcl with ⟨h1, _⟩ | ⟨m', rest, bs', e', h1, h2, h3, h4, h5, _⟩
    · rw [hp] at h1; simp at h1
    · rw [hp] at h1
      obtain ⟨rfl, rfl⟩ := List.cons.inj h1
      obtain ⟨i1, i2⟩ := ih bs' e' h2 h3 h4
      exact ⟨fun hn st ls' en' hr => h5 hi st _ en' (i1 hn st ls' en' hr),
        fun g hg st => h5 hi st _ _ (i2 g hg st)⟩
  | @file m f u ms ls a out en hi0 hf hu _ _ iha ihr =>
    intro bs e hok hcl hp
    have hi := (includes_iff m f).mp hi0
    rcases next fs _ bs e le_rfl hok hcl with ⟨h1, _⟩ | ⟨m', rest, bs', e', h1, h2, h3, h4, _, h6, _⟩
    · rw [hp] at h1; simp at h1
    · rw [hp] at h1
      obtain ⟨rfl, rfl⟩ := List.cons.inj h1
      obtain ⟨i1, i2⟩ := ihr bs' e' h2 h3 h4
      obtain ⟨bu, eu, ht0, hou, hcu, hmu⟩ := hu
      have ht := unix_chars ht0
      obtain ⟨j1, _⟩ := iha bu eu hou hcu hmu.symm
      refine ⟨fun hn st ls' en' hr => ?_, fun g hg st => ?_⟩
      · refine h6 f u hi hf st _ en' ?_
        rw [ht, List.map_append, List.append_assoc]
        exact j1 rfl _ _ en' (i1 hn st ls' en' hr)
      · refine h6 f u hi hf st _ _ ?_
        rw [ht, List.map_append]
        exact j1 rfl _ _ _ (i2 g hg st)
  | @inner m f u ms ls a g hi0 hf hu _ iha =>
    intro bs e hok hcl hp
    have hi := (includes_iff m f).mp hi0
    rcases next fs _ bs e le_rfl hok hcl with ⟨h1, _⟩ | ⟨m', rest, bs', e', h1, h2, h3, h4, _, h6, _⟩
    · rw [hp] at h1; simp at h1
    · rw [hp] at h1
      obtain ⟨rfl, rfl⟩ := List.cons.inj h1
      obtain ⟨bu, eu, ht0, hou, hcu, hmu⟩ := hu
      have ht := unix_chars ht0
      obtain ⟨_, j2⟩ := iha bu eu hou hcu hmu.symm
      refine ⟨fun hn => by simp at hn, fun g' hg st => ?_⟩
      refine h6 f u hi hf st _ _ ?_
      rw [ht]
      exact j2 g' hg _
  | @missing m f ls hi0 hf =>
    intro bs e hok hcl hp
    have hi := (includes_iff m f).mp hi0
    rcases next fs _ bs e le_rfl hok hcl with ⟨h1, _⟩ | ⟨m', rest, bs', e', h1, _, _, _, _, _, h7⟩
    · rw [hp] at h1; simp at h1
    · rw [hp] at h1
      obtain ⟨rfl, rfl⟩ := List.cons.inj h1
      refine ⟨fun hn => by simp at hn, fun g hg st => ?_⟩
      rw [← Option.some.inj hg]
      exact h7 f hi hf st

/-! ## Every text is in parts -/

theorem parts_slash (n : Nat) : ∀ (t w : Text), t.length ≤ n → Blanks w →
    (∀ u : Text, u.length ≤ n → ∃ bs e, u = text bs e ∧ Ok bs e) →
    ∃ bs e, '\\' :: w ++ t = text bs e ∧ Ok bs e ∧
      (match bs with
        | [] => e.slash = true
        | b :: _ => b.slash = true) := by
  intro t
  induction t with
  | nil =>
    intro w _ hw _
    exact ⟨[], .back w, by simp [text, Rest.text], hw, rfl⟩
  | cons c t ih =>
    intro w hn hw hall
    have hn' : t.length ≤ n := by simp only [List.length_cons] at hn; omega
    by_cases h1 : c = '\\'
    · subst h1
      obtain ⟨bs, e, ht, ho, hsl⟩ := ih [] hn' (fun x hx => by simp at hx) hall
      refine ⟨.back w :: bs, e, ?_, ⟨hw, ho, hsl⟩, rfl⟩
      rw [text_cons, ← ht]
      rfl
    · by_cases h2 : c = '\n'
      · subst h2
        obtain ⟨bs, e, ht, ho⟩ := hall t hn'
        refine ⟨.cont w :: bs, e, ?_, ⟨hw, ho⟩, rfl⟩
        rw [text_cons, ← ht]
        simp [Bit.text]
      · cases h3 : isSpace c with
        | true =>
          obtain ⟨bs, e, ht, ho, hsl⟩ := ih (w ++ [c]) hn' (by
            intro x hx
            rcases List.mem_append.mp hx with hx | hx
            · exact hw x hx
            · rw [List.mem_singleton.mp hx]; exact ⟨(mem_white c).mpr h3, h2⟩) hall
          refine ⟨bs, e, ?_, ho, hsl⟩
          rw [← ht]
          simp
        | false =>
          obtain ⟨bs, e, ht, ho⟩ := hall t hn'
          refine ⟨.lit w c :: bs, e, ?_, ⟨⟨hw, (not_white c).mpr h3, h1⟩, ho⟩, rfl⟩
          rw [text_cons, ← ht]
          simp [Bit.text]

theorem parts_comment (n : Nat) : ∀ (t b : Text), t.length ≤ n → '\n' ∉ b →
    (∀ u : Text, u.length ≤ n → ∃ bs e, u = text bs e ∧ Ok bs e) →
    ∃ bs e, '#' :: b ++ t = text bs e ∧ Ok bs e := by
  intro t
  induction t with
  | nil =>
    intro b _ hb _
    exact ⟨[], .comment b, by simp [text, Rest.text], hb⟩
  | cons c t ih =>
    intro b hn hb hall
    have hn' : t.length ≤ n := by simp only [List.length_cons] at hn; omega
    by_cases h2 : c = '\n'
    · subst h2
      obtain ⟨bs, e, ht, ho⟩ := hall t hn'
      refine ⟨.comment b :: bs, e, ?_, ⟨hb, ho⟩⟩
      rw [text_cons, ← ht]
      simp [Bit.text]
    · obtain ⟨bs, e, ht, ho⟩ := ih (b ++ [c]) hn' (by
        intro hx
        rcases List.mem_append.mp hx with hx | hx
        · exact hb hx
        · exact h2 (List.mem_singleton.mp hx).symm) hall
      refine ⟨bs, e, ?_, ho⟩
      rw [← ht]
      simp

theorem parts (n : Nat) : ∀ t : Text, t.length ≤ n → ∃ bs e, t = text bs e ∧ Ok bs e := by
  induction n with
  | zero =>
    intro t ht
    rw [List.length_eq_zero_iff.mp (by omega : t.length = 0)]
    exact ⟨[], .none, rfl, trivial⟩
  | succ n ih =>
    intro t ht
    cases t with
    | nil => exact ⟨[], .none, rfl, trivial⟩
    | cons c t =>
      have hn' : t.length ≤ n := by simp only [List.length_cons] at ht; omega
      by_cases h1 : c = '\\'
      · subst h1
        obtain ⟨bs, e, h, ho, _⟩ := parts_slash n t [] hn' (fun x hx => by simp at hx) ih
        exact ⟨bs, e, h, ho⟩
      · by_cases h2 : c = '#'
        · subst h2
          exact parts_comment n t [] hn' (by simp) ih
        · obtain ⟨bs, e, h, ho⟩ := ih t hn'
          by_cases h3 : c = ';'
          · subst h3
            exact ⟨.stop true :: bs, e, by rw [text_cons, ← h]; rfl, ⟨trivial, ho⟩⟩
          · by_cases h4 : c = '\n'
            · subst h4
              exact ⟨.stop false :: bs, e, by rw [text_cons, ← h]; rfl, ⟨trivial, ho⟩⟩
            · exact ⟨.chr c :: bs, e, by rw [text_cons, ← h]; rfl, ⟨⟨h2, h3, h4, h1⟩, ho⟩⟩

end Verif.Input
