import Verif.Pbasic.Sim

/-!
# Lemmas for structured programs: the searches for tokens
-/

namespace Verif.Pbasic

variable {A : Arith} {σ : Env}

/-- Tokens that stand in simple statements. -/
def inStmt : Tok → Bool
  | .kw .klet => true
  | .kw .kdim => true
  | .kw .kpunch => true
  | .kw .kgosub => true
  | .semi => true
  | t => inExpr t

/-- Tokens that stand in lines. -/
def inLine : Tok → Bool
  | .kw .kif => true
  | .kw .kthen => true
  | .kw .kelse => true
  | .colon => true
  | t => inStmt t

theorem inStmt_of {t : Tok} (h : inExpr t = true) : inStmt t = true := by
  cases t <;> first | rfl | cases h

theorem inLine_of {t : Tok} (h : inStmt t = true) : inLine t = true := by
  cases t with
  | kw k => cases k <;> first | rfl | cases h
  | _ => first | rfl | cases h

theorem items_in {es : List Ex} {ts : List Tok} (h : WritesItems es ts) :
    ∀ t ∈ ts, inStmt t = true := by
  have hs : ∀ t : Tok, t = .comma ∨ t = .semi → inStmt t = true := by
    rintro t (rfl | rfl) <;> rfl
  induction h with
  | nil => simp
  | sep ht _ ih =>
    intro t h; rcases List.mem_cons.mp h with rfl | h
    · exact hs _ ht
    · exact ih t h
  | final he => exact fun t h => inStmt_of (writes_in he t h)
  | item ht he _ ih =>
    intro t h
    simp only [List.mem_append, List.mem_cons] at h
    rcases h with h | rfl | h
    · exact inStmt_of (writes_in he t h)
    · exact hs _ ht
    · exact ih t h

theorem stmt_in {x : Simple} {ts : List Tok} (h : WritesS x ts) : ∀ t ∈ ts, inStmt t = true := by
  cases h with
  | letv h =>
    intro t ht
    simp only [List.mem_cons] at ht
    rcases ht with rfl | rfl | ht
    · rfl
    · rfl
    · exact inStmt_of (writes_in h t ht)
  | letv' h =>
    intro t ht
    simp only [List.mem_cons] at ht
    rcases ht with rfl | rfl | rfl | ht
    · rfl
    · rfl
    · rfl
    · exact inStmt_of (writes_in h t ht)
  | lete ha h =>
    intro t ht
    simp only [List.mem_cons, List.mem_append] at ht
    rcases ht with rfl | rfl | ht | rfl | ht
    · rfl
    · rfl
    · exact inStmt_of (argsWrites_in ha t ht)
    · rfl
    · exact inStmt_of (writes_in h t ht)
  | dim ha =>
    intro t ht
    simp only [List.mem_cons] at ht
    rcases ht with rfl | rfl | rfl | ht
    · rfl
    · rfl
    · rfl
    · exact inStmt_of (argsWrites_in ha t ht)
  | punch h =>
    intro t ht
    rcases List.mem_cons.mp ht with rfl | ht
    · rfl
    · exact items_in h t ht
  | gosub n =>
    intro t ht
    simp only [List.mem_cons, List.not_mem_nil, or_false] at ht
    rcases ht with rfl | rfl <;> rfl

theorem line_in {l : Ln} {ts : List Tok} (h : WritesLn l ts) : ∀ t ∈ ts, inLine t = true := by
  induction h with
  | last h => exact fun t ht => inLine_of (stmt_in h t ht)
  | seq h _ ih =>
    intro t ht
    simp only [List.mem_append, List.mem_cons] at ht
    rcases ht with ht | rfl | ht
    · exact inLine_of (stmt_in h t ht)
    · rfl
    · exact ih t ht
  | ifte hc _ _ _ iha ihb =>
    intro t ht
    simp only [List.mem_append, List.mem_cons] at ht
    rcases ht with rfl | ht | rfl | ht | rfl | ht
    · rfl
    · exact inLine_of (inStmt_of (writes_in hc t ht))
    · rfl
    · exact iha t ht
    · rfl
    · exact ihb t ht
  | ift hc _ iha =>
    intro t ht
    simp only [List.mem_append, List.mem_cons] at ht
    rcases ht with rfl | ht | rfl | ht
    · rfl
    · exact inLine_of (inStmt_of (writes_in hc t ht))
    · rfl
    · exact iha t ht

/-- A statement begins with a word or a variable. -/
def beginsStmt : Tok → Bool
  | .var _ => true
  | .kw _ => true
  | _ => false

theorem stmt_head {x : Simple} {ts : List Tok} (h : WritesS x ts) :
    ∃ t r, ts = t :: r ∧ beginsStmt t = true := by
  cases h <;> exact ⟨_, _, rfl, rfl⟩

theorem line_head {l : Ln} {ts : List Tok} (h : WritesLn l ts) :
    ∃ t r, ts = t :: r ∧ beginsStmt t = true := by
  cases h with
  | last h => exact stmt_head h
  | seq h _ => obtain ⟨t, r, e, hb⟩ := stmt_head h; exact ⟨t, r ++ _, by rw [e]; rfl, hb⟩
  | ifte => exact ⟨_, _, rfl, rfl⟩
  | ift => exact ⟨_, _, rfl, rfl⟩

/-! ## The search for `ELSE` -/

theorem skipIf_pass {i : Int} (hi : 0 ≤ i) : ∀ {ts : List Tok} (r : List Tok),
    (∀ t ∈ ts, inStmt t = true) → skipIf i (ts ++ r) = skipIf i r
  | [], _, _ => rfl
  | t :: ts, r, h => by
      have ht := h t List.mem_cons_self
      have h1 : t ≠ .kw .kif := by rintro rfl; cases ht
      have h2 : t ≠ .kw .kelse := by rintro rfl; cases ht
      rw [List.cons_append]
      conv_lhs => unfold skipIf
      simp only [if_neg h1, if_neg h2]
      rw [if_neg (by omega)]
      exact skipIf_pass hi r fun u hu => h u (List.mem_cons_of_mem _ hu)

theorem skipIf_one {i : Int} (hi : 0 ≤ i) {t : Tok} (r : List Tok) (h1 : t ≠ .kw .kif)
    (h2 : t ≠ .kw .kelse) : skipIf i (t :: r) = skipIf i r := by
  conv_lhs => unfold skipIf
  simp only [if_neg h1, if_neg h2]
  rw [if_neg (by omega)]

theorem skipIf_if {i : Int} (hi : 0 ≤ i) (r : List Tok) :
    skipIf i (.kw .kif :: r) = skipIf (i + 1) r := by
  conv_lhs => unfold skipIf
  simp only [if_true]
  rw [if_neg (by omega)]

theorem skipIf_else {i : Int} (hi : 0 < i) (r : List Tok) :
    skipIf i (.kw .kelse :: r) = skipIf (i - 1) r := by
  conv_lhs => unfold skipIf
  simp only [reduceCtorEq, if_false, if_true, Tok.kw.injEq]
  rw [if_neg (by omega)]

theorem skipIf_own (r : List Tok) : skipIf 0 (.kw .kelse :: r) = r := by
  conv_lhs => unfold skipIf
  simp only [reduceCtorEq, if_false, if_true, Tok.kw.injEq]
  rw [if_pos (by omega)]

theorem skipIf_line {l : Ln} {ts : List Tok} (h : WritesLn l ts) : ∀ {i : Int} (r : List Tok),
    0 ≤ i → ∃ j, i ≤ j ∧ (closed l → j = i) ∧ skipIf i (ts ++ r) = skipIf j r := by
  induction h with
  | last h =>
    intro i r hi
    exact ⟨i, le_refl _, fun _ => rfl, skipIf_pass hi r (stmt_in h)⟩
  | seq h _ ih =>
    intro i r hi
    obtain ⟨j, h1, h2, h3⟩ := ih r hi
    refine ⟨j, h1, h2, ?_⟩
    rw [List.append_assoc, skipIf_pass hi _ (stmt_in h), List.cons_append,
      skipIf_one hi _ (by decide) (by decide), h3]
  | ifte hc hcl _ _ iha ihb =>
    rename_i c a b tc ta tb _ _
    intro i r hi
    obtain ⟨j, h1, h2, h3⟩ := iha (.kw .kelse :: (tb ++ r)) (i := i + 1) (by omega)
    obtain ⟨j', h1', h2', h3'⟩ := ihb r hi
    refine ⟨j', h1', h2', ?_⟩
    have e : .kw .kif :: (tc ++ .kw .kthen :: (ta ++ .kw .kelse :: tb)) ++ r
        = .kw .kif :: (tc ++ .kw .kthen :: (ta ++ .kw .kelse :: (tb ++ r))) := by simp
    rw [e, skipIf_if hi, skipIf_pass (by omega) _ (fun t ht => inStmt_of (writes_in hc t ht)),
      skipIf_one (by omega) _ (by decide) (by decide), h3, h2 hcl, skipIf_else (by omega)]
    rw [show i + 1 - 1 = i by omega, h3']
  | ift hc _ iha =>
    rename_i c a tc ta _
    intro i r hi
    obtain ⟨j, h1, h2, h3⟩ := iha r (i := i + 1) (by omega)
    refine ⟨j, by omega, fun h => h.elim, ?_⟩
    have e : .kw .kif :: (tc ++ .kw .kthen :: ta) ++ r
        = .kw .kif :: (tc ++ .kw .kthen :: (ta ++ r)) := by simp
    rw [e, skipIf_if hi, skipIf_pass (by omega) _ (fun t ht => inStmt_of (writes_in hc t ht)),
      skipIf_one (by omega) _ (by decide) (by decide), h3]

theorem skipIf_nil (i : Int) : skipIf i [] = [] := by unfold skipIf; rfl

/-! ## The search for `NEXT` -/

/-- Tokens that no search for the end of a loop looks at. -/
def calm (t : Tok) : Prop :=
  t ≠ .kw .kfor ∧ t ≠ .kw .knext ∧ t ≠ .kw .kwhile ∧ t ≠ .kw .kwend

theorem calm_line {t : Tok} (h : inLine t = true) : calm t := by
  refine ⟨?_, ?_, ?_, ?_⟩ <;> (rintro rfl; cases h)

theorem calm_expr {t : Tok} (h : inExpr t = true) : calm t := calm_line (inLine_of (inStmt_of h))

theorem scanFor_pass {v : V} {i j : Int} (hi : 0 ≤ i) (hj : 0 ≤ j) : ∀ {ts : List Tok}
    (r : List Tok), (∀ t ∈ ts, t ≠ .kw .kfor ∧ t ≠ .kw .knext) →
    scanFor v i j (ts ++ r) = scanFor v i j r
  | [], _, _ => rfl
  | t :: ts, r, h => by
      obtain ⟨h1, h2⟩ := h t List.mem_cons_self
      rw [List.cons_append]
      conv_lhs => unfold scanFor
      simp only [h1, h2, false_and, if_false]
      rw [if_neg (by omega)]
      exact scanFor_pass hi hj r fun u hu => h u (List.mem_cons_of_mem _ hu)

theorem scanFor_all {v : V} {i j : Int} (hi : 0 ≤ i) (hj : 0 ≤ j) {ts : List Tok}
    (h : ∀ t ∈ ts, t ≠ .kw .kfor ∧ t ≠ .kw .knext) : scanFor v i j ts = .inr (i, j) := by
  have := scanFor_pass (v := v) hi hj [] h
  rw [List.append_nil] at this
  rw [this]; unfold scanFor; rfl

theorem skipFor_line {v : V} {i j c1 c2 : Int} {x y : Line} {k : List Line} {ts : List Tok}
    (h : scanFor v i j ts = .inr (c1, c2)) :
    skipFor v i j (x :: y :: k) ts = skipFor v c1 c2 (y :: k) y.txt := by
  conv_lhs => unfold skipFor
  rw [h]

theorem skipFor_hit {v : V} {i j : Int} {ln : List Line} {ts r : List Tok}
    (h : scanFor v i j ts = .inl r) : skipFor v i j ln ts = .ok (ln, r) := by
  unfold skipFor
  rw [h]

theorem scanFor_own (v : V) : scanFor v 0 0 [.kw .knext, .var v] = .inl [.var v] := by
  unfold scanFor
  simp [nextIs]

theorem scanFor_open {v w : V} {i j : Int} (hi : 0 ≤ i) (hj : 0 ≤ j) {ts : List Tok}
    (h : ∀ t ∈ ts, t ≠ .kw .kfor ∧ t ≠ .kw .knext) :
    scanFor v i j (.kw .kfor :: .var w :: ts)
      = .inr (if w = v then (i, j + 1) else (i + 1, j)) := by
  conv_lhs => unfold scanFor
  have hv : (.var w : Tok) ≠ .kw .kfor ∧ (.var w : Tok) ≠ .kw .knext := ⟨by simp, by simp⟩
  have h' : ∀ t ∈ (.var w :: ts : List Tok), t ≠ .kw .kfor ∧ t ≠ .kw .knext := by
    intro t ht; rcases List.mem_cons.mp ht with rfl | ht
    · exact hv
    · exact h t ht
  by_cases e : w = v
  · simp only [nextIs, e, decide_true]
    simp only [reduceCtorEq, and_false, and_true, if_true, if_false, Tok.kw.injEq]
    rw [if_neg (by omega)]
    rw [e] at h'
    exact scanFor_all hi (by omega) h'
  · simp only [nextIs, e, decide_false]
    simp only [reduceCtorEq, and_false, and_true, if_true, if_false, Tok.kw.injEq]
    rw [if_neg (by omega)]
    exact scanFor_all (by omega) hj h'

theorem scanFor_close {v w : V} {i j : Int} (hi : 0 ≤ i) (hj : 0 ≤ j) :
    scanFor v (if w = v then (i, j + 1) else (i + 1, j)).1 (if w = v then (i, j + 1) else (i + 1, j)).2
      [.kw .knext, .var w] = .inr (i, j) := by
  have h' : ∀ t ∈ ([.var w] : List Tok), t ≠ .kw .kfor ∧ t ≠ .kw .knext := by
    intro t ht; simp only [List.mem_cons, List.not_mem_nil, or_false] at ht
    subst ht; exact ⟨by simp, by simp⟩
  conv_lhs => unfold scanFor
  by_cases e : w = v
  · simp only [nextIs, e, decide_true, if_true]
    simp only [reduceCtorEq, and_false, and_true, if_true, if_false, Tok.kw.injEq]
    rw [if_neg (by omega)]
    rw [e] at h'
    rw [show j + 1 - 1 = j by omega]
    exact scanFor_all hi hj h'
  · simp only [nextIs, e, decide_false, if_false]
    simp only [reduceCtorEq, and_false, and_true, if_true, if_false, Tok.kw.injEq]
    rw [if_neg (by omega)]
    rw [show i + 1 - 1 = i by omega]
    exact scanFor_all hi hj h'

theorem step_in {s : Option Ex} {ts : List Tok} (h : WritesStep s ts) : ∀ t ∈ ts, calm t := by
  cases h with
  | none => simp
  | some h =>
    intro t ht; rcases List.mem_cons.mp ht with rfl | ht
    · exact ⟨by simp, by simp, by simp, by simp⟩
    · exact calm_expr (writes_in h t ht)

theorem head_in {ta tb tst : List Tok} {a b : Ex} {s : Option Ex} (ha : Writes 6 a ta)
    (hb : Writes 6 b tb) (hs : WritesStep s tst) :
    ∀ t ∈ .op .eq :: (ta ++ .kw .kto :: (tb ++ tst)), calm t := by
  intro t ht
  simp only [List.mem_cons, List.mem_append] at ht
  rcases ht with rfl | ht | rfl | ht | ht
  · exact ⟨by simp, by simp, by simp, by simp⟩
  · exact calm_expr (writes_in ha t ht)
  · exact ⟨by simp, by simp, by simp, by simp⟩
  · exact calm_expr (writes_in hb t ht)
  · exact step_in hs t ht

theorem skipFor_block {b : Blk} {ls : List Line} (h : WritesB b ls) : ∀ {v : V} {i j : Int}
    {y : Line} {k : List Line}, 0 ≤ i → 0 ≤ j →
    skipFor v i j (ls ++ y :: k) (firstTxt (ls ++ y :: k)) = skipFor v i j (y :: k) y.txt := by
  induction h with
  | nil => intros; rfl
  | line h _ ih =>
    rename_i l k' n ts ls hk
    intro v i j y k hi hj
    have e := scanFor_all (v := v) hi hj
      fun t ht => ⟨(calm_line (line_in h t ht)).1, (calm_line (line_in h t ht)).2.1⟩
    rw [← ih hi hj]
    show skipFor v i j (⟨n, ts⟩ :: (ls ++ y :: k)) ts = _
    cases hz : ls ++ y :: k with
    | nil => simp at hz
    | cons z zs => exact skipFor_line e
  | loop ha hb hs _ _ ihb ihk =>
    rename_i w a b s body k' n n' ta tb tst lb ls hB hK
    intro v i j y k hi hj
    have e := scanFor_open (v := v) (w := w) hi hj
      fun t ht => ⟨(head_in ha hb hs t ht).1, (head_in ha hb hs t ht).2.1⟩
    have e2 := scanFor_close (v := v) (w := w) hi hj
    rw [← ihk hi hj]
    rw [List.cons_append, List.append_assoc, List.cons_append]
    have h1 : skipFor v i j
        (⟨n, .kw .kfor :: .var w :: .op .eq :: (ta ++ .kw .kto :: (tb ++ tst))⟩ ::
          (lb ++ ⟨n', [.kw .knext, .var w]⟩ :: (ls ++ y :: k)))
        (.kw .kfor :: .var w :: .op .eq :: (ta ++ .kw .kto :: (tb ++ tst)))
        = skipFor v (if w = v then (i, j + 1) else (i + 1, j)).1
            (if w = v then (i, j + 1) else (i + 1, j)).2
            (lb ++ ⟨n', [.kw .knext, .var w]⟩ :: (ls ++ y :: k))
            (firstTxt (lb ++ ⟨n', [.kw .knext, .var w]⟩ :: (ls ++ y :: k))) := by
      cases hz : lb ++ ⟨n', [.kw .knext, .var w]⟩ :: (ls ++ y :: k) with
      | nil => simp at hz
      | cons z zs => exact skipFor_line e
    refine Eq.trans h1 ?_
    rw [ihb (by split <;> dsimp only <;> omega) (by split <;> dsimp only <;> omega)]
    cases hz : ls ++ y :: k with
    | nil => simp at hz
    | cons z zs => exact skipFor_line e2
  | whil hc _ _ ihb ihk =>
    rename_i c body k' n n' tc lb ls hB hK
    intro v i j y k hi hj
    have e := scanFor_all (v := v) (ts := .kw .kwhile :: tc) hi hj (by
      intro t ht
      rcases List.mem_cons.mp ht with rfl | ht
      · exact ⟨by simp, by simp⟩
      · exact ⟨(calm_expr (writes_in hc t ht)).1, (calm_expr (writes_in hc t ht)).2.1⟩)
    have e2 := scanFor_all (v := v) (ts := [.kw .kwend]) hi hj (by simp)
    rw [← ihk hi hj]
    rw [List.cons_append, List.append_assoc, List.cons_append]
    have h1 : skipFor v i j
        (⟨n, .kw .kwhile :: tc⟩ :: (lb ++ ⟨n', [.kw .kwend]⟩ :: (ls ++ y :: k))) (.kw .kwhile :: tc)
        = skipFor v i j (lb ++ ⟨n', [.kw .kwend]⟩ :: (ls ++ y :: k))
            (firstTxt (lb ++ ⟨n', [.kw .kwend]⟩ :: (ls ++ y :: k))) := by
      cases hz : lb ++ ⟨n', [.kw .kwend]⟩ :: (ls ++ y :: k) with
      | nil => simp at hz
      | cons z zs => exact skipFor_line e
    show skipFor v i j (_ :: _) (.kw .kwhile :: tc) = _
    rw [h1, ihb hi hj]
    cases hz : ls ++ y :: k with
    | nil => simp at hz
    | cons z zs => exact skipFor_line e2

/-- A `FOR` loop that is left out. -/
theorem skipFor_loop {v : V} {body : Blk} {lb k : List Line} {x : Line} {n : Nat}
    (h : WritesB body lb) :
    skipFor v 0 0 (x :: (lb ++ ⟨n, [.kw .knext, .var v]⟩ :: k)) []
      = .ok (⟨n, [.kw .knext, .var v]⟩ :: k, [.var v]) := by
  have e : scanFor v 0 0 [] = .inr (0, 0) := by unfold scanFor; rfl
  have h1 : skipFor v 0 0 (x :: (lb ++ ⟨n, [.kw .knext, .var v]⟩ :: k)) []
      = skipFor v 0 0 (lb ++ ⟨n, [.kw .knext, .var v]⟩ :: k)
          (firstTxt (lb ++ ⟨n, [.kw .knext, .var v]⟩ :: k)) := by
    cases hz : lb ++ ⟨n, [.kw .knext, .var v]⟩ :: k with
    | nil => simp at hz
    | cons z zs => exact skipFor_line e
  rw [h1, skipFor_block h (le_refl _) (le_refl _)]
  exact skipFor_hit (scanFor_own v)

/-! ## The search for `WEND` -/

theorem scanLoop_pass {i : Int} (hi : 0 ≤ i) : ∀ {ts : List Tok} (r : List Tok),
    (∀ t ∈ ts, t ≠ .kw .kwhile ∧ t ≠ .kw .kwend) →
    scanLoop .kwhile .kwend i (ts ++ r) = scanLoop .kwhile .kwend i r
  | [], _, _ => rfl
  | t :: ts, r, h => by
      obtain ⟨h1, h2⟩ := h t List.mem_cons_self
      rw [List.cons_append]
      conv_lhs => unfold scanLoop
      simp only [if_neg h1, if_neg h2]
      rw [if_neg (by omega)]
      exact scanLoop_pass hi r fun u hu => h u (List.mem_cons_of_mem _ hu)

theorem scanLoop_all {i : Int} (hi : 0 ≤ i) {ts : List Tok}
    (h : ∀ t ∈ ts, t ≠ .kw .kwhile ∧ t ≠ .kw .kwend) :
    scanLoop .kwhile .kwend i ts = .inr i := by
  have := scanLoop_pass hi [] h
  rw [List.append_nil] at this
  rw [this]; unfold scanLoop; rfl

theorem skiploop_line {i c : Int} {x y : Line} {k : List Line} {ts : List Tok}
    (h : scanLoop .kwhile .kwend i ts = .inr c) :
    skiploop .kwhile .kwend i (x :: y :: k) ts = skiploop .kwhile .kwend c (y :: k) y.txt := by
  conv_lhs => unfold skiploop
  rw [h]

theorem skiploop_block {b : Blk} {ls : List Line} (h : WritesB b ls) : ∀ {i : Int}
    {y : Line} {k : List Line}, 0 ≤ i →
    skiploop .kwhile .kwend i (ls ++ y :: k) (firstTxt (ls ++ y :: k))
      = skiploop .kwhile .kwend i (y :: k) y.txt := by
  have two : ∀ {t : Tok}, calm t → t ≠ .kw .kwhile ∧ t ≠ .kw .kwend := fun h => h.2.2
  induction h with
  | nil => intros; rfl
  | line h _ ih =>
    rename_i l k' n ts ls hk
    intro i y k hi
    have e := scanLoop_all hi fun t ht => two (calm_line (line_in h t ht))
    rw [← ih hi]
    show skiploop .kwhile .kwend i (⟨n, ts⟩ :: (ls ++ y :: k)) ts = _
    cases hz : ls ++ y :: k with
    | nil => simp at hz
    | cons z zs => exact skiploop_line e
  | loop ha hb hs _ _ ihb ihk =>
    rename_i w a b s body k' n n' ta tb tst lb ls hB hK
    intro i y k hi
    have e := scanLoop_all (ts := .kw .kfor :: .var w :: .op .eq :: (ta ++ .kw .kto :: (tb ++ tst)))
      hi (by
        intro t ht
        rcases List.mem_cons.mp ht with rfl | ht
        · exact ⟨by simp, by simp⟩
        rcases List.mem_cons.mp ht with rfl | ht
        · exact ⟨by simp, by simp⟩
        exact two (head_in ha hb hs t ht))
    have e2 := scanLoop_all (ts := [.kw .knext, .var w]) hi (by simp)
    rw [← ihk hi]
    rw [List.cons_append, List.append_assoc, List.cons_append]
    have h1 : skiploop .kwhile .kwend i
        (⟨n, .kw .kfor :: .var w :: .op .eq :: (ta ++ .kw .kto :: (tb ++ tst))⟩ ::
          (lb ++ ⟨n', [.kw .knext, .var w]⟩ :: (ls ++ y :: k)))
        (.kw .kfor :: .var w :: .op .eq :: (ta ++ .kw .kto :: (tb ++ tst)))
        = skiploop .kwhile .kwend i (lb ++ ⟨n', [.kw .knext, .var w]⟩ :: (ls ++ y :: k))
            (firstTxt (lb ++ ⟨n', [.kw .knext, .var w]⟩ :: (ls ++ y :: k))) := by
      cases hz : lb ++ ⟨n', [.kw .knext, .var w]⟩ :: (ls ++ y :: k) with
      | nil => simp at hz
      | cons z zs => exact skiploop_line e
    refine Eq.trans h1 ?_
    rw [ihb hi]
    cases hz : ls ++ y :: k with
    | nil => simp at hz
    | cons z zs => exact skiploop_line e2
  | whil hc _ _ ihb ihk =>
    rename_i c body k' n n' tc lb ls hB hK
    intro i y k hi
    have e : scanLoop .kwhile .kwend i (.kw .kwhile :: tc) = .inr (i + 1) := by
      conv_lhs => unfold scanLoop
      simp only [if_true]
      rw [if_neg (by omega)]
      exact scanLoop_all (by omega) fun t ht => two (calm_expr (writes_in hc t ht))
    have e2 : scanLoop .kwhile .kwend (i + 1) [.kw .kwend] = .inr i := by
      conv_lhs => unfold scanLoop
      simp only [reduceCtorEq, if_false, if_true, Tok.kw.injEq]
      rw [if_neg (by omega)]
      unfold scanLoop
      rw [show i + 1 - 1 = i by omega]
    rw [← ihk hi]
    rw [List.cons_append, List.append_assoc, List.cons_append]
    have h1 : skiploop .kwhile .kwend i
        (⟨n, .kw .kwhile :: tc⟩ :: (lb ++ ⟨n', [.kw .kwend]⟩ :: (ls ++ y :: k))) (.kw .kwhile :: tc)
        = skiploop .kwhile .kwend (i + 1) (lb ++ ⟨n', [.kw .kwend]⟩ :: (ls ++ y :: k))
            (firstTxt (lb ++ ⟨n', [.kw .kwend]⟩ :: (ls ++ y :: k))) := by
      cases hz : lb ++ ⟨n', [.kw .kwend]⟩ :: (ls ++ y :: k) with
      | nil => simp at hz
      | cons z zs => exact skiploop_line e
    refine Eq.trans h1 ?_
    rw [ihb (by omega)]
    cases hz : ls ++ y :: k with
    | nil => simp at hz
    | cons z zs => exact skiploop_line e2

/-- A `WHILE` loop that is left out. -/
theorem skiploop_loop {body : Blk} {lb k : List Line} {x : Line} {n : Nat} (h : WritesB body lb) :
    skiploop .kwhile .kwend 0 (x :: (lb ++ ⟨n, [.kw .kwend]⟩ :: k)) []
      = .ok (⟨n, [.kw .kwend]⟩ :: k, []) := by
  have e : scanLoop .kwhile .kwend 0 [] = .inr 0 := by unfold scanLoop; rfl
  have h1 : skiploop .kwhile .kwend 0 (x :: (lb ++ ⟨n, [.kw .kwend]⟩ :: k)) []
      = skiploop .kwhile .kwend 0 (lb ++ ⟨n, [.kw .kwend]⟩ :: k)
          (firstTxt (lb ++ ⟨n, [.kw .kwend]⟩ :: k)) := by
    cases hz : lb ++ ⟨n, [.kw .kwend]⟩ :: k with
    | nil => simp at hz
    | cons z zs => exact skiploop_line e
  rw [h1, skiploop_block h (le_refl _)]
  unfold skiploop
  have : scanLoop .kwhile .kwend 0 [.kw .kwend] = .inl [] := by
    unfold scanLoop
    simp only [reduceCtorEq, if_false, if_true, Tok.kw.injEq]
    rw [if_pos (by omega)]
  rw [this]

end Verif.Pbasic
