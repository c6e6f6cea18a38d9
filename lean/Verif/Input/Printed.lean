import Verif.Input.Lemmas

/-!
# Lemmas about words and printed lines
-/

namespace Verif.Input

open Verif.Input.Spec

theorem expand_plain {fs : Text → Option Text} {ms : List Text}
    (h : ∀ m ∈ ms, ∀ f, ¬ Includes m f) : Expand fs ms ms none := by
  induction ms with
  | nil => exact .nil
  | cons m ms ih => exact .line (h m (by simp)) (ih (fun x hx => h x (by simp [hx])))

theorem words_tokens {m : Text} {ws : List Text} (h : Words m ws) :
    ∀ n, m.length < n → tokens n m = ws := by
  induction h with
  | @nil m h =>
    intro n hn
    cases n with
    | zero => omega
    | succ n =>
      have : (token m).1 = [] := by
        have := dropWhile_all (fun c hc => (mem_white c).mp (h c hc)) ([] : Text)
        rw [List.append_nil] at this
        simp [token, this]
      rw [tokens, if_pos this]
  | @cons m w r ws h _ ih =>
    intro n hn
    cases n with
    | zero => omega
    | succ n =>
      have ht := token_of_first h
      obtain ⟨b, _, rfl, ⟨hne, _⟩, _⟩ := h
      have hl : 0 < w.length := List.length_pos_iff.mpr hne
      simp only [List.length_append] at hn
      rw [tokens, ht, if_neg hne, ih n (by omega)]

theorem gap_white {b : Text} (h : Gap b) : ∀ c ∈ b, c ∈ white := by
  intro c hc
  rcases h c hc with rfl | rfl <;> decide

theorem words_printed (ws : List (Text × Text)) (tl : Text) (ht : Gap tl)
    (h : ∀ x ∈ ws, Gap x.1 ∧ Plain x.2) (hb : ∀ x ∈ ws.tail, x.1 ≠ []) :
    Words (Printed.text ⟨ws, tl⟩) (ws.map Prod.snd) := by
  induction ws with
  | nil => exact .nil (by simpa [Printed.text] using gap_white ht)
  | cons x ws ih =>
    obtain ⟨g, p, _⟩ := h x (by simp)
    have e : Printed.text ⟨x :: ws, tl⟩ = x.1 ++ x.2 ++ Printed.text ⟨ws, tl⟩ := by
      simp [Printed.text]
    rw [e]
    refine .cons (r := Printed.text ⟨ws, tl⟩) ⟨x.1, gap_white g, rfl, p, fun c r' hr => ?_⟩
      (ih (fun y hy => h y (by simp [hy])) (fun y hy => hb y (List.mem_of_mem_tail hy)))
    cases ws with
    | nil =>
      simp only [Printed.text, List.map_nil, List.flatten_nil, List.nil_append] at hr
      exact gap_white ht c (by rw [hr]; simp)
    | cons y ws =>
      have hy := hb y (by simp)
      have gy := (h y (by simp)).1
      cases hy1 : y.1 with
      | nil => exact absurd hy1 hy
      | cons d b =>
        simp only [Printed.text, List.map_cons, List.flatten_cons, hy1, List.cons_append] at hr
        rw [← (List.cons.inj hr).1]
        exact gap_white gy d (by rw [hy1]; simp)

theorem printed_chars (ws : List (Text × Text)) (tl : Text) (ht : Gap tl)
    (h : ∀ x ∈ ws, Gap x.1 ∧ Plain x.2) :
    ∀ c ∈ Printed.text ⟨ws, tl⟩, (c ≠ '#' ∧ c ≠ ';' ∧ c ≠ '\n' ∧ c ≠ '\\') ∧ c ≠ '\r' := by
  have hg : ∀ b, Gap b → ∀ c ∈ b, (c ≠ '#' ∧ c ≠ ';' ∧ c ≠ '\n' ∧ c ≠ '\\') ∧ c ≠ '\r' := by
    intro b hb c hc
    rcases hb c hc with rfl | rfl <;> decide
  intro c hc
  rcases List.mem_append.mp hc with hc | hc
  · obtain ⟨y, hy, hcy⟩ := List.mem_flatten.mp hc
    obtain ⟨x, hx, rfl⟩ := List.mem_map.mp hy
    obtain ⟨g, ⟨_, w⟩, p1, p2, p3⟩ := h x hx
    rcases List.mem_append.mp hcy with hcy | hcy
    · exact hg _ g c hcy
    · have := w c hcy
      refine ⟨⟨fun e => p1 (e ▸ hcy), fun e => p2 (e ▸ hcy), fun e => ?_, fun e => p3 (e ▸ hcy)⟩,
        fun e => ?_⟩
      · rw [e] at this; exact this (by decide)
      · rw [e] at this; exact this (by decide)
  · exact hg _ ht c hc

/-- The parts of a printed line. -/
def lineBits (s : Text) : List Bit := s.map Bit.chr ++ [.stop false]

theorem pieces_chrs (s cur : Text) (bs : List Bit) (e : Rest) :
    pieces cur (s.map Bit.chr ++ bs) e = pieces (cur ++ s) bs e := by
  induction s generalizing cur with
  | nil => simp
  | cons c s ih =>
    show pieces (cur ++ [c]) (s.map Bit.chr ++ bs) e = _
    rw [ih]
    simp

theorem ok_chrs (s : Text) (bs : List Bit) (e : Rest)
    (h : ∀ c ∈ s, c ≠ '#' ∧ c ≠ ';' ∧ c ≠ '\n' ∧ c ≠ '\\') (hb : Ok bs e) :
    Ok (s.map Bit.chr ++ bs) e := by
  induction s with
  | nil => exact hb
  | cons c s ih => exact ⟨h c (by simp), ih (fun x hx => h x (by simp [hx]))⟩

theorem text_chrs (s : Text) (bs : List Bit) (e : Rest) :
    text (s.map Bit.chr ++ bs) e = s ++ text bs e := by
  induction s with
  | nil => rfl
  | cons c s ih => 
    rw [List.map_cons, List.cons_append, text_cons, ih]
    rfl

end Verif.Input
