import Verif.Pbasic.DataSpec
import Verif.Pbasic.Sim

/-!
# Lemmas on `READ` and `DATA`
-/

namespace Verif.Pbasic

variable {A : Arith} {prog : List Line}

theorem stmtEnd_eos {ts : List Tok} (h : StmtEnd ts) : iseos ts = true := by
  rcases h with rfl | ⟨r, rfl⟩ | ⟨r, rfl⟩ <;> rfl

theorem stmtEnd_comma {ts : List Tok} (h : StmtEnd ts) : ∀ r, ts ≠ .comma :: r := by
  rcases h with rfl | ⟨r, rfl⟩ | ⟨r, rfl⟩ <;> simp

theorem items_head {es : List Ex} {ts : List Tok} (h : WritesData es ts) (post : List Tok) :
    iseos (ts ++ post) = false := by
  have : ∃ t r, ts = t :: r ∧ beginsExpr t = true := by
    cases h with
    | one h => exact writes_head h
    | more h _ => obtain ⟨t, r, e, hb⟩ := writes_head h; exact ⟨t, r ++ _, by rw [e]; rfl, hb⟩
  obtain ⟨t, r, rfl, hb⟩ := this
  cases t <;> first | rfl | cases hb

theorem seekIn_pass : ∀ {pre : List Tok} (r : List Tok), (∀ t ∈ pre, t ≠ .kw .kdata) →
    seekIn (pre ++ r) = seekIn r
  | [], _, _ => rfl
  | t :: pre, r, h => by
      rw [List.cons_append]
      conv_lhs => unfold seekIn
      rw [if_neg (fun hc => h t List.mem_cons_self hc.1)]
      exact seekIn_pass r fun u hu => h u (List.mem_cons_of_mem _ hu)

/-- The state of the data behind a place: `items ++ post`, with the next item
first. -/
def AtItem (es : List Ex) (ts : List Tok) : Prop :=
  ∃ items post ea eb, ts = items ++ post ∧ WritesData ea items ∧ StmtEnd post ∧ LineData eb post ∧
    es = ea ++ eb

theorem seekIn_data {es : List Ex} {ts : List Tok} (h : LineData es ts) :
    (es = [] ∧ seekIn ts = none) ∨ ∃ r, seekIn ts = some r ∧ AtItem es r := by
  induction h with
  | none h =>
    left
    rename_i ts
    refine ⟨rfl, ?_⟩
    have := seekIn_pass [] h
    rw [List.append_nil] at this
    rw [this]; rfl
  | data h hi he hp _ =>
    right
    rename_i pre items post es es' _
    refine ⟨items ++ post, ?_, items, post, es, es', rfl, hi, he, hp, rfl⟩
    rw [seekIn_pass _ h]
    unfold seekIn
    rw [if_pos ⟨rfl, items_head hi post⟩]
  | empty h he hp ih =>
    rename_i pre post es
    have : seekIn (pre ++ .kw .kdata :: post) = seekIn post := by
      rw [seekIn_pass _ h]
      conv_lhs => unfold seekIn
      rw [if_neg (by rw [stmtEnd_eos he]; simp)]
    rw [this]; exact ih

theorem seek_data : ∀ {ls : List Line} {l : Line} {t : List Tok} {es1 es2 : List Ex},
    LineData es1 t → ProgData es2 ls →
    (es1 ++ es2 = [] ∧ seek (l :: ls) t = .err) ∨
    ∃ l' ls' r ea eb, seek (l :: ls) t = .ok (l' :: ls', r) ∧ AtItem ea r ∧ ProgData eb ls' ∧
      es1 ++ es2 = ea ++ eb
  | ls, l, t, es1, es2, h1, h2 => by
      rcases seekIn_data h1 with ⟨rfl, hs⟩ | ⟨r, hs, ha⟩
      · cases h2 with
        | nil =>
          left
          refine ⟨rfl, ?_⟩
          unfold seek; rw [hs]
        | cons hc h hs' =>
          rename_i e1 e2 l2 ls
          have e : seek (l :: l2 :: ls) t = seek (l2 :: ls) l2.txt := by
            conv_lhs => unfold seek
            rw [hs]
          rw [e, List.nil_append]
          exact seek_data h hs'
      · right
        refine ⟨l, ls, r, es1, es2, ?_, ha, h2, rfl⟩
        unfold seek; rw [hs]

/-- What is still to be read at a place of the data. -/
def Pending (prog : List Line) (es : List Ex) (d : List Line × List Tok) : Prop :=
  (d.1 = [] ∧ prog ≠ [] ∧ ProgData es prog) ∨
  ∃ l ls ea eb, d.1 = l :: ls ∧ es = ea ++ eb ∧ ProgData eb ls ∧
    ((∃ r, d.2 = .comma :: r ∧ AtItem ea r) ∨ ((∀ r, d.2 ≠ .comma :: r) ∧ LineData ea d.2))

theorem place_data {es : List Ex} {m : M} (h : Pending prog es (m.dline, m.dtok)) :
    (es = [] ∧ dataPlace prog m = .err) ∨
    ∃ l' ls' r ea eb, dataPlace prog m = .ok (l' :: ls', r) ∧ AtItem ea r ∧ ProgData eb ls' ∧
      es = ea ++ eb := by
  rcases h with ⟨h1, h2, h3⟩ | ⟨l, ls, ea, eb, h1, rfl, h3, h4⟩
  · cases h3 with
    | nil => exact absurd rfl h2
    | cons hc h hs =>
      rename_i e1 e2 l ls
      have : dataPlace (l :: ls) m = seek (l :: ls) l.txt := by
        unfold dataPlace
        rw [if_pos h1]
        dsimp only
        split
        · rename_i r e; exact absurd e (hc r)
        · rfl
      rw [this]
      exact seek_data h hs
  · dsimp only at h1
    rcases h4 with ⟨r, h4, h5⟩ | ⟨h4, h5⟩
    · dsimp only at h4
      unfold dataPlace
      rw [if_neg (by rw [h1]; simp), h1, h4]
      exact Or.inr ⟨l, ls, r, ea, eb, rfl, h5, h3, rfl⟩
    · dsimp only at h4
      have : dataPlace prog m = seek (l :: ls) m.dtok := by
        unfold dataPlace
        rw [if_neg (by rw [h1]; simp), h1]
        split
        · rename_i r e; exact absurd e (h4 r)
        · rfl
      rw [this]
      exact seek_data h5 h3

theorem atItem_cons {es : List Ex} {r : List Tok} (h : AtItem es r) :
    ∃ e es' te rest, es = e :: es' ∧ r = te ++ rest ∧ Writes 6 e te ∧ Ends rest ∧
      ((∃ r', rest = .comma :: r' ∧ AtItem es' r') ∨
        ((∀ r', rest ≠ .comma :: r') ∧ LineData es' rest)) := by
  obtain ⟨items, post, ea, eb, rfl, hi, he, hp, rfl⟩ := h
  cases hi with
  | one h => exact ⟨_, eb, items, post, rfl, rfl, h, ends_eos (stmtEnd_eos he),
      Or.inr ⟨stmtEnd_comma he, hp⟩⟩
  | more h hs =>
    rename_i e es te ts
    exact ⟨e, es ++ eb, te, .comma :: (ts ++ post), rfl, by simp, h, ends_sep (Or.inl rfl) _,
      Or.inl ⟨ts ++ post, rfl, ts, post, es, eb, rfl, hs, he, hp, rfl⟩⟩

theorem readOne_end {m : M} {v : V} {rest : List Tok} (hp : Pending prog [] (m.dline, m.dtok))
    (ht : m.tok = .var v :: rest) (h0 : (m.env v).dims = []) (hr : ∀ r, rest ≠ .lp :: r) :
    readOne A prog m = .err := by
  unfold readOne
  rw [ht, lvalue_var h0 hr]
  simp only [Res.bind_ok]
  rcases place_data hp with ⟨-, h⟩ | ⟨l', ls', r, ea, eb, -, h2, -, h4⟩
  · rw [h]; rfl
  · obtain ⟨e, es', te, rest, rfl, -⟩ := atItem_cons h2
    cases h4

theorem readOne_item {m : M} {v : V} {rest : List Tok} {e : Ex} {es : List Ex} {x : Val} {σ' : Env}
    (hp : Pending prog (e :: es) (m.dline, m.dtok)) (ht : m.tok = .var v :: rest)
    (h0 : (m.env v).dims = []) (hr : ∀ r, rest ≠ .lp :: r) (hd : Declared m.env e)
    (hv : value A m.env e = .ok x) (hput : put m.env v 0 x σ') :
    ∃ d, readOne A prog m = .ok { m with tok := rest, env := σ', dline := d.1, dtok := d.2 } ∧
      Pending prog es d := by
  rcases place_data hp with ⟨h, -⟩ | ⟨l', ls', r, ea, eb, h1, h2, h3, h4⟩
  · cases h
  · obtain ⟨e', es', te, rest', rfl, rfl, hw, he, hn⟩ := atItem_cons h2
    rw [List.cons_append] at h4
    injection h4 with h4 h5
    subst h4
    refine ⟨(l' :: ls', rest'), ?_, Or.inr ⟨l', ls', es', eb, rfl, h5, h3, hn⟩⟩
    unfold readOne
    rw [ht, lvalue_var h0 hr]
    simp only [Res.bind_ok, h1]
    rw [if_neg (by simp [h0])]
    cases x with
    | num q =>
      obtain ⟨hs, rfl⟩ := put_num hput
      rw [hs, realexpr_of hw hd he hv]; rfl
    | str t =>
      obtain ⟨hs, rfl⟩ := put_str hput
      rw [hs, strexpr_of hw hd he hv]; rfl

theorem cmdread_of {vs : List V} {tv : List Tok} (hw : WritesVars vs tv) : ∀ {m : M}
    {es es' : List Ex} {rest : List Tok} {σ' : Env} {f : Nat}, m.tok = tv ++ rest →
    iseos rest = true → tv.length ≤ f → Pending prog (es ++ es') (m.dline, m.dtok) →
    ReadsTo A vs es m.env σ' →
    ∃ d, cmdread A prog f m
        = .ok ({ m with tok := rest, env := σ', dline := d.1, dtok := d.2 }, .plain) ∧
      Pending prog es' d := by
  induction hw with
  | one v =>
    intro m es es' rest σ' f ht hr hf hp hrd
    obtain ⟨f, rfl⟩ : ∃ g, f = g + 1 := ⟨f - 1, by simp at hf; omega⟩
    cases hrd with
    | cons h0 hd h hput hs =>
      cases hs
      rw [List.cons_append, List.nil_append] at hp
      obtain ⟨d, h1, h2⟩ := readOne_item hp ht h0 (ends_eos hr).1 hd h hput
      refine ⟨d, ?_, h2⟩
      unfold cmdread
      rw [h1]
      simp [hr]
  | more hw ih =>
    rename_i v vs ts
    intro m es es' rest σ' f ht hr hf hp hrd
    obtain ⟨f, rfl⟩ : ∃ g, f = g + 1 := ⟨f - 1, by simp at hf; omega⟩
    cases hrd with
    | cons h0 hd h hput hs =>
      rename_i e es σ1 x
      rw [List.cons_append] at hp
      rw [List.cons_append, List.cons_append] at ht
      obtain ⟨d, h1, h2⟩ := readOne_item hp ht h0 (by simp) hd h hput
      have hne : iseos (ts ++ rest) = false := by cases hw <;> rfl
      obtain ⟨d', h3, h4⟩ := ih
        (m := { m with tok := ts ++ rest, env := σ1, dline := d.1, dtok := d.2 }) (f := f) rfl hr (by simp only [List.length_cons] at hf; omega) h2 hs
      refine ⟨d', ?_, h4⟩
      unfold cmdread
      rw [h1]
      simp only [Res.bind_ok]
      rw [if_neg (by simp [iseos])]
      simp only [require, if_true, Res.bind_ok]
      rw [if_neg (by simp [hne]), h3]

theorem cmdread_out {vs : List V} {tv : List Tok} (hw : WritesVars vs tv) : ∀ {m : M}
    {es : List Ex} {rest : List Tok} {vs1 vs2 : List V} {w : V} {σ' : Env} {f : Nat},
    m.tok = tv ++ rest →
    iseos rest = true → tv.length ≤ f → Pending prog es (m.dline, m.dtok) →
    vs = vs1 ++ w :: vs2 → ReadsTo A vs1 es m.env σ' → (σ' w).dims = [] →
    cmdread A prog f m = .err := by
  induction hw with
  | one v =>
    intro m es rest vs1 vs2 w σ' f ht hr hf hp hvs hrd h0
    obtain ⟨f, rfl⟩ : ∃ g, f = g + 1 := ⟨f - 1, by simp at hf; omega⟩
    cases vs1 with
    | nil =>
      cases hrd
      rw [List.nil_append] at hvs
      cases hvs
      unfold cmdread
      rw [readOne_end hp ht h0 (ends_eos hr).1]
      rfl
    | cons u vs1 => simp at hvs
  | more hw ih =>
    rename_i v vs ts
    intro m es rest vs1 vs2 w σ' f ht hr hf hp hvs hrd h0
    obtain ⟨f, rfl⟩ : ∃ g, f = g + 1 := ⟨f - 1, by simp at hf; omega⟩
    rw [List.cons_append, List.cons_append] at ht
    cases vs1 with
    | nil =>
      cases hrd
      rw [List.nil_append] at hvs
      cases hvs
      unfold cmdread
      rw [readOne_end hp ht h0 (by simp)]
      rfl
    | cons u vs1 =>
      rw [List.cons_append] at hvs
      injection hvs with e1 e2
      subst e1
      cases hrd with
      | cons hd0 hd h hput hs =>
        rename_i e es σ1 x
        obtain ⟨d, h1, h2⟩ := readOne_item hp ht hd0 (by simp) hd h hput
        have hne : iseos (ts ++ rest) = false := by cases hw <;> rfl
        have h3 := ih
          (m := { m with tok := ts ++ rest, env := σ1, dline := d.1, dtok := d.2 }) (f := f) rfl hr (by simp only [List.length_cons] at hf; omega) h2 e2 hs h0
        unfold cmdread
        rw [h1]
        simp only [Res.bind_ok]
        rw [if_neg (by simp [iseos])]
        simp only [require, if_true, Res.bind_ok]
        rw [if_neg (by simp [hne]), h3]

theorem pending_line {es : List Ex} {l : Line} {ls : List Line} (h : ProgData es (l :: ls)) :
    Pending prog es (l :: ls, firstTxt (l :: ls)) := by
  cases h with
  | cons hc h hs => exact Or.inr ⟨l, ls, _, _, rfl, rfl, hs, Or.inr ⟨hc, h⟩⟩

end Verif.Pbasic
