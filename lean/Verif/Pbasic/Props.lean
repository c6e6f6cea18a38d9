import Verif.Pbasic.Jump

/-!
# BASIC programs

`expr A ts σ` is what the interpreter makes of the tokens `ts` with the
variables `σ`: a value, the tokens left over, and the variables afterwards.
`run A prog n (start prog)` is a program after `n` statements.  For parts of a
program, `top ls s L d` is the machine before the first of the lines `ls`,
with variables and output `s`, loops `L` and data place `d`; `cfg (y :: ls) ts
s L d` is the machine in the line `y`, before its tokens `ts`; `after y ls
rest s L d` is the machine before `rest`, or before the next line if nothing is
left; `Reach A prog m m'` says that the interpreter gets from `m` to `m'`.
The functions of the mathematical library are any functions `A`.
-/

namespace Verif.Pbasic

variable (A : Arith)

/-! ## Program lines -/

/-- Lines entered in any order with any repetitions: the program is sorted by
line number without repetitions, and has for each number the text entered last
under that number, or no line if that text was empty. -/
theorem program_lines (es : List (Nat × List Tok)) :
    (es.foldl (fun p e => enter e.1 e.2 p) []).Pairwise (fun a b => a.num < b.num) ∧
    ∀ l : Line, l ∈ es.foldl (fun p e => enter e.1 e.2 p) [] ↔
      l.txt ≠ [] ∧ (es.filter fun e => e.1 = l.num).getLast? = some (l.num, l.txt) := by
  obtain ⟨h1, h2⟩ := enter_all es [] List.Pairwise.nil
  refine ⟨h1, fun l => ?_⟩
  rw [h2 l]
  cases hf : (es.filter fun e => e.1 = l.num).getLast? with
  | none => simp
  | some e =>
    have hm : e ∈ es.filter fun e => e.1 = l.num := List.mem_of_getLast? hf
    have he : e.1 = l.num := by simpa using (List.mem_filter.mp hm).2
    obtain ⟨n, t⟩ := e
    simp only at he
    subst he
    simp

/-- `DEL n1-n2` on a sorted program takes out the lines with these numbers and
no others. -/
theorem deleted_lines (n1 n2 : Nat) (p : List Line) (h : p.Pairwise fun a b => a.num < b.num) :
    delRange n1 n2 p = p.filter fun l => ¬ (n1 ≤ l.num ∧ l.num ≤ n2) :=
  delRange_filter n1 n2 h

/-! ## Expressions -/

/-- However an expression is written, with the least parentheses or with more,
the interpreter gives its value, or its error, and stops behind it.  `rest` is
whatever follows, if it does not continue the expression. -/
theorem expression_value (σ : Env) (e : Ex) (ts rest : List Tok) (h : Writes 6 e ts)
    (hd : Declared σ e) (h1 : ∀ r, rest ≠ .lp :: r) (h2 : ∀ o r, rest ≠ .op o :: r) :
    expr A (ts ++ rest) σ = (value A σ e).bind fun v => .ok (v, rest, σ) :=
  expr_value h hd h1 h2

/-- Every expression can be written. -/
theorem expression_written (e : Ex) : ∃ ts, Writes 6 e ts := by
  obtain ⟨ts, h⟩ := writes_exists e
  exact ⟨ts, writes_up h (by omega)⟩

/-- No text has two meanings: two expressions that are written with the same
tokens have the same value. -/
theorem expression_unambiguous (σ : Env) (e e' : Ex) (ts : List Tok) (h : Writes 6 e ts)
    (h' : Writes 6 e' ts) (hd : Declared σ e) (hd' : Declared σ e') :
    value A σ e = value A σ e' := by
  have h1 := expr_value (A := A) (rest := []) h hd (by simp) (by simp)
  have h2 := expr_value (A := A) (rest := []) h' hd' (by simp) (by simp)
  rw [h1] at h2
  cases hv : value A σ e <;> cases hv' : value A σ e' <;> rw [hv, hv'] at h2 <;>
    simp [Res.bind] at h2 ⊢ <;> exact h2

open Classical in
/-- 1 for a condition that holds, 0 for one that does not. -/
noncomputable def flag (p : Prop) : ℚ := if p then 1 else 0

/-- `AND`, `OR` and `XOR` of two conditions are the conditions one expects.

Missing: `NOT`, see `Violations`. -/
theorem conditions_combine_partial (σ : Env) (a b : Ex) (p q : Prop)
    (ha : value A σ a = .ok (.num (flag p))) (hb : value A σ b = .ok (.num (flag q)))
    (ts rest : List Tok) (h1 : ∀ r, rest ≠ .lp :: r) (h2 : ∀ o r, rest ≠ .op o :: r)
    (hda : Declared σ a) (hdb : Declared σ b) :
    (Writes 6 (.bin .and a b) ts →
      expr A (ts ++ rest) σ = .ok (.num (flag (p ∧ q)), rest, σ)) ∧
    (Writes 6 (.bin .or a b) ts →
      expr A (ts ++ rest) σ = .ok (.num (flag (p ∨ q)), rest, σ)) ∧
    (Writes 6 (.bin .xor a b) ts →
      expr A (ts ++ rest) σ = .ok (.num (flag (¬ (p ↔ q))), rest, σ)) := by
  have hd : ∀ o, Declared σ (.bin o a b) := fun o => by unfold Declared; exact ⟨hda, hdb⟩
  have hv : ∀ o, o ≠ .pow → value A σ (.bin o a b) = onNumbers A o (flag p) (flag q) := by
    intro o ho
    unfold value
    rw [ha, hb]
    simp only [Res.bind_ok, ho, false_and, if_false, onValues]
  have w0 : whole 0 = .ok 0 := by
    unfold whole; simp [IsLong]
  have w1 : whole 1 = .ok 1 := by
    unfold whole; simp [IsLong]; norm_num
  have wf : ∀ p, ∃ z : Int, whole (flag p) = .ok z ∧ ((p ∧ z = 1) ∨ (¬ p ∧ z = 0)) := by
    intro p
    unfold flag
    by_cases h : p
    · rw [if_pos h]; exact ⟨1, w1, Or.inl ⟨h, rfl⟩⟩
    · rw [if_neg h]; exact ⟨0, w0, Or.inr ⟨h, rfl⟩⟩
  obtain ⟨zp, hp1, hp2⟩ := wf p
  obtain ⟨zq, hq1, hq2⟩ := wf q
  refine ⟨fun hw => ?_, fun hw => ?_, fun hw => ?_⟩ <;>
  · rw [expr_value hw (hd _) h1 h2, hv _ (by simp)]
    unfold onNumbers
    simp only [hp1, hq1, Res.bind_ok]
    congr 3
    unfold flag
    rcases hp2 with ⟨hp, rfl⟩ | ⟨hp, rfl⟩ <;> rcases hq2 with ⟨hq, rfl⟩ | ⟨hq, rfl⟩ <;>
      simp [hp, hq] <;> first | rfl | decide +kernel | simp [Int.bitwise, Nat.bitwise]

/-! ## Arrays -/

/-- An element of an array whose subscripts lie outside the dimensions cannot be
read: an error, and never a cell of another element or outside the array. -/
theorem array_range (σ : Env) (w : V) (a : Args) (ta rest : List Tok) (js : List Int)
    (hw : WritesArgs a ta) (hd : Declared σ (.elem w a)) (hs : Subs A σ a js)
    (hr : ¬ InRange js (σ w).dims) (h1 : ∀ r, rest ≠ .lp :: r) (h2 : ∀ o r, rest ≠ .op o :: r) :
    expr A (.var w :: .lp :: (ta ++ rest)) σ = .err := by
  have hd' : (σ w).dims.length = a.count ∧ DeclaredArgs σ a := by unfold Declared at hd; exact hd
  have hc := cellOf_out hs 0 (by rw [subs_count hs, hd'.1]) hr
  have := expr_value (A := A) (Writes.elem (l := 6) hw) hd h1 h2
  rw [List.cons_append, List.cons_append] at this
  rw [this]
  unfold value
  rw [hc]
  rfl

/-- After `v(a) = e` the element with these subscripts has the new value, and
every other element, of this array and of any other, the value it had before. -/
theorem array_store (prog : List Line) (v : V) (a : Args) (e : Ex) (ta te : List Tok)
    (y : Line) (ls : List Line) (s : St) (L : List Frame) (d : List Line × List Tok)
    (js : List Int) (x : Val) (hwa : WritesArgs a ta) (hwe : Writes 6 e te)
    (hv : Declared s.env (.elem v a)) (hjs : Subs A s.env a js)
    (hin : InRange js (s.env v).dims) (hd : Declared s.env e) (hx : value A s.env e = .ok x)
    (hk : isText x = v.isStr) :
    ∃ s', Reach A prog (cfg (y :: ls) (.var v :: .lp :: (ta ++ .op .eq :: te)) s L d)
        (top ls s' L d) ∧ s'.outp = s.outp ∧
      ∀ (w : V) (a' : Args) (ta' : List Tok) (js' : List Int), WritesArgs a' ta' →
        Declared s.env (.elem w a') → Subs A s.env a' js' → Subs A s'.env a' js' →
        InRange js' (s.env w).dims →
        ∃ old, expr A (.var w :: .lp :: ta') s.env = .ok (old, [], s.env) ∧
          expr A (.var w :: .lp :: ta') s'.env
            = .ok (if w = v ∧ js' = js then x else old, [], s'.env) := by
  obtain ⟨k, hk1⟩ := cellOf_in hjs 0 hin
  obtain ⟨σ', hp⟩ := put_exists (σ := s.env) k hk
  have hr := good_let (prog := prog) (sub := fun _ => none) (A := A)
    (Runs.lete (s := s) hv hk1 hd hx hp) (by simp) (y := y) (ls := ls) (L := L) (d := d)
    (rest := []) (WritesS.lete hwa hwe) rfl
  rw [List.append_nil] at hr
  refine ⟨⟨σ', s.outp⟩, hr, rfl, ?_⟩
  intro w a' ta' js' hw' hd' hs hs' hin'
  obtain ⟨c, hc⟩ := cellOf_in hs 0 hin'
  have hdim := put_all_dims hp
  obtain ⟨c', hc'⟩ := cellOf_in hs' (ds := (σ' w).dims) 0 (by rw [hdim w]; exact hin')
  have hd2 : Declared σ' (.elem w a') := declared_same hdim hd'
  have lw : js'.length = (s.env w).dims.length := hin'.length_eq
  have hcc : c = c' := by
    rw [hdim w] at hc'
    have key : ∀ {ds : List Nat} {k : Nat} {a' : Args} {js' : List Int}, Subs A s.env a' js' →
        Subs A σ' a' js' → cellOf A s.env ds k a' = cellOf A σ' ds k a' := by
      intro ds k a' js' h
      induction h generalizing ds k with
      | one h hj =>
        intro h'
        cases h' with
        | one h2 hj2 =>
          cases ds with
          | nil => unfold cellOf; rfl
          | cons d ds => unfold cellOf; rw [h, h2]; simp only [Res.bind_ok, number, hj, hj2]
      | more h hj _ ih =>
        intro h'
        cases h' with
        | more h2 hj2 hs2 =>
          cases ds with
          | nil => unfold cellOf; rfl
          | cons d ds =>
            unfold cellOf; rw [h, h2]; simp only [Res.bind_ok, number, hj, hj2]
            cases place k d _ <;> first | rfl | exact ih hs2
    rw [key hs hs', hc'] at hc
    injection hc with hc; exact hc.symm
  refine ⟨s.env.read w c, elem_read hw' hd' hc, ?_⟩
  rw [elem_read hw' hd2 hc', read_put hp, ← hcc]
  by_cases hwv : w = v
  · subst hwv
    have lv : js.length = (s.env w).dims.length := hin.length_eq
    by_cases hj : js' = js
    · have : c = k := by
        subst hj
        rw [hdim w] at hc'
        have h1 : ∀ {ds : List Nat} {k : Nat} {a a' : Args} {js : List Int}, Subs A s.env a js →
            Subs A s.env a' js → cellOf A s.env ds k a = cellOf A s.env ds k a' := by
          intro ds k a a' js h
          induction h generalizing ds k a' with
          | one h hj =>
            intro h'
            cases h' with
            | one h2 hj2 =>
              cases ds with
              | nil => unfold cellOf; rfl
              | cons d ds => unfold cellOf; rw [h, h2]; simp only [Res.bind_ok, number, hj, hj2]
            | more _ _ hs => cases hs
          | more h hj hs ih =>
            intro h'
            cases h' with
            | one => cases hs
            | more h2 hj2 hs2 =>
              cases ds with
              | nil => unfold cellOf; rfl
              | cons d ds =>
                unfold cellOf; rw [h, h2]; simp only [Res.bind_ok, number, hj, hj2]
                cases place k d _ <;> first | rfl | exact ih hs2
        rw [h1 hs hjs, hk1] at hc
        injection hc with hc; exact hc.symm
      rw [if_pos ⟨rfl, this⟩, if_pos ⟨rfl, hj⟩]
    · have : c ≠ k := by
        intro hck
        subst hck
        exact hj (cellOf_inj hs hjs lw lv hc hk1).2
      rw [if_neg (fun h => this h.2), if_neg (fun h => hj h.2)]
  · rw [if_neg (fun h => hwv h.1), if_neg (fun h => hwv h.1)]

/-- The first use of an array without `DIM` is the same as the use after
`DIM v(10,...,10)`, in an expression and on the left of `=`.

Missing: subscripts that contain a comma themselves, see `Violations`. -/
theorem first_use_partial (σ σ1 : Env) (v : V) (a : Args) (ta rest : List Tok)
    (h : WritesFlat a ta) (hn : a.count ≤ 4) (h0 : (σ v).dims = [])
    (h1 : DimTen σ v a.count σ1) :
    expr A (.var v :: .lp :: (ta ++ rest)) σ = expr A (.var v :: .lp :: (ta ++ rest)) σ1 ∧
    lvalue A (.var v :: .lp :: (ta ++ rest)) σ = lvalue A (.var v :: .lp :: (ta ++ rest)) σ1 := by
  refine ⟨ev_first h hn h0 h1 _ _, ?_⟩
  unfold lvalue
  dsimp only
  rw [findvar_first h hn h0 h1]

/-! ## Programs -/

/-- The first statement behind a program: nothing, or `END`. -/
def Finishes (tail : List Line) : Prop := tail = [] ∨ ∃ n k, tail = ⟨n, [.kw .kend]⟩ :: k

/-- A structured program does what it says: with whatever nesting of `FOR`,
`WHILE`, `IF` and `GOSUB`, the interpreter ends, after enough statements, with
the variables and the output that the meaning of the program gives, and with no
loop left open. -/
theorem structured_program (sub : Nat → Option Blk) (b : Blk) (ls tail : List Line) (s' : St)
    (hw : WritesB b ls) (ht : Finishes tail) (hs : HasSubs (ls ++ tail) sub)
    (hr : Runs A sub (.b b) ⟨fun _ => ⟨[], fun _ => 0, fun _ => []⟩, []⟩ s') :
    ∃ N, ∀ n, N ≤ n → run A (ls ++ tail) n (start (ls ++ tail))
      = .ok ⟨[], [], s'.env, [], [], [], s'.outp⟩ := by
  have h1 := runs_good (subsOk_of hs) hr (k := tail) (L := []) (d := ([], [])) hw
  have h2 : Reach A (ls ++ tail) (start (ls ++ tail)) (top tail s' [] ([], [])) := h1
  refine reach_end (h2.then ?_) rfl
  rcases ht with rfl | ⟨n, k, rfl⟩
  · exact Reach.refl
  · exact Reach.step (p := (cfg [] [] s' [] ([], []), .plain)) (by simp) rfl rfl

/-- The same for a part of a program, inside any loops and subroutines. -/
theorem structured_part (prog : List Line) (sub : Nat → Option Blk) (b : Blk) (ls k : List Line)
    (s s' : St) (L : List Frame) (d : List Line × List Tok) (hw : WritesB b ls)
    (hs : HasSubs prog sub) (hr : Runs A sub (.b b) s s') :
    Reach A prog (top (ls ++ k) s L d) (top k s' L d) :=
  runs_good (subsOk_of hs) hr hw

/-- A `FOR` loop with a step other than zero, whose body leaves the variable
alone, is executed `⌊(b - a) / step⌋ + 1` times (never, if that is negative),
with the variable equal to `a`, `a + step`, `a + 2 step`, ...; behind the loop
the variable has the first value outside. `t i` is the state before and `u i`
the state after the body for the `i`-th time. -/
theorem for_loop_times (prog : List Line) (sub : Nat → Option Blk) (hs : HasSubs prog sub)
    (v : V) (ea eb : Ex) (es : Option Ex) (body : Blk) (n n' : Nat) (ta tb tst : List Tok)
    (lb k : List Line) (s : St) (L : List Frame) (d : List Line × List Tok) (a b step : ℚ)
    (hwa : Writes 6 ea ta) (hwb : Writes 6 eb tb) (hws : WritesStep es tst) (hbody : WritesB body lb)
    (h0 : (s.env v).dims = []) (hda : Declared s.env ea) (ha : value A s.env ea = .ok (.num a))
    (t u : Nat → St) (ht0 : put s.env v 0 (.num a) (t 0).env) (ho0 : (t 0).outp = s.outp)
    (hdb : Declared (t 0).env eb) (hb : value A (t 0).env eb = .ok (.num b))
    (hst : StepIs A (t 0).env es step) (hne : step ≠ 0)
    (hrun : ∀ i < times a b step, Runs A sub (.b body) (t i) (u i))
    (hkeep : ∀ i < times a b step, ((u i).env v).numCell 0 = ((t i).env v).numCell 0 ∧
      ((u i).env v).dims = [])
    (hnext : ∀ i < times a b step,
      put (u i).env v 0 (.num (a + (i + 1 : Nat) * step)) (t (i + 1)).env)
    (hout : ∀ i < times a b step, (t (i + 1)).outp = (u i).outp) :
    (∀ i ≤ times a b step, ((t i).env v).numCell 0 = a + i * step) ∧
    Reach A prog
      (top (⟨n, .kw .kfor :: .var v :: .op .eq :: (ta ++ .kw .kto :: (tb ++ tst))⟩ ::
        (lb ++ ⟨n', [.kw .knext, .var v]⟩ :: k)) s L d)
      (top k (t (times a b step)) L d) := by
  have cell : ∀ {σ σ' : Env} {q : ℚ}, put σ v 0 (.num q) σ' → (σ' v).numCell 0 = q := by
    intro σ σ' q h
    rw [h.2.2.2.2 0, if_pos rfl]
  have hval : ∀ i ≤ times a b step, ((t i).env v).numCell 0 = a + i * step := by
    intro i hi
    cases i with
    | zero => rw [cell ht0]; simp
    | succ i => rw [cell (hnext i (by omega))]
  refine ⟨hval, ?_⟩
  have hit := iter_times (A := A) (sub := sub) (body := body) hne hval hrun
    (fun i hi => ⟨by rw [(hkeep i hi).1, hval i hi.le], (hkeep i hi).2⟩) hnext hout
    (times a b step) (le_refl _)
  rw [Nat.sub_self] at hit
  have h0' : t 0 = ⟨(t 0).env, s.outp⟩ := by rw [← ho0]
  rw [h0'] at hit
  have hr : Runs A sub (.b (.loop v ea eb es body .nil)) s (t (times a b step)) :=
    Runs.loop h0 hda ha ht0 hdb hb hst hit Runs.nil
  have := runs_good (subsOk_of hs) hr (k := k) (L := L) (d := d)
    (WritesB.loop (n := n) (n' := n') hwa hwb hws hbody WritesB.nil)
  rw [List.cons_append, List.append_assoc] at this
  exact this

/-! ## Data -/

/-- `READ v1, v2, ...` reads the next items of the data, in the order of the
program, into its variables, and the items behind them are the next to be read. -/
theorem read_in_order (prog : List Line) (vs : List V) (es es' : List Ex) (tv rest : List Tok)
    (y : Line) (ls : List Line) (s : St) (σ' : Env) (L : List Frame) (d : List Line × List Tok)
    (hw : WritesVars vs tv) (hr : StmtEnd rest) (hp : Pending prog (es ++ es') d)
    (h : ReadsTo A vs es s.env σ') :
    ∃ d', Reach A prog (cfg (y :: ls) (.kw .kread :: (tv ++ rest)) s L d)
        (after y ls rest ⟨σ', s.outp⟩ L d') ∧ Pending prog es' d' := by
  have hr := stmtEnd_eos hr
  obtain ⟨d', h1, h2⟩ := cmdread_of (A := A) (prog := prog) hw
    (m := cfg (y :: ls) (tv ++ rest) s L d) (f := (tv ++ rest).length + 1) rfl hr (by simp; omega)
    hp h
  refine ⟨d', ?_, h2⟩
  exact Reach.step (p := (cfg (y :: ls) rest ⟨σ', s.outp⟩ L d', .plain)) (by simp) h1
    (finish_after hr)

/-- A `READ` with more variables than there are items left ends the program with
an error. -/
theorem read_too_many (prog : List Line) (vs1 vs2 : List V) (w : V) (es : List Ex)
    (tv rest : List Tok) (y : Line) (ls : List Line) (s : St) (σ' : Env) (L : List Frame)
    (d : List Line × List Tok) (hw : WritesVars (vs1 ++ w :: vs2) tv) (hr : StmtEnd rest)
    (hp : Pending prog es d) (h : ReadsTo A vs1 es s.env σ') (h0 : (σ' w).dims = []) :
    step A prog (cfg (y :: ls) (.kw .kread :: (tv ++ rest)) s L d) = .err := by
  have := cmdread_out (A := A) (prog := prog) hw
    (m := cfg (y :: ls) (tv ++ rest) s L d) (f := (tv ++ rest).length + 1) rfl (stmtEnd_eos hr)
    (by simp; omega) hp rfl h h0
  unfold step
  have e : dropColons (cfg (y :: ls) (.kw .kread :: (tv ++ rest)) s L d).tok
      = .kw .kread :: (tv ++ rest) := rfl
  rw [e]
  show (cmdread A prog _ _).bind finish = _
  have e2 : cmdread A prog ((tv ++ rest).length + 1) (cfg (y :: ls) (tv ++ rest) s L d) = .err := this
  show (cmdread A prog ((tv ++ rest).length + 1) (cfg (y :: ls) (tv ++ rest) s L d)).bind finish = _
  rw [e2]
  rfl

/-- At the start of a program all its data are still to be read. -/
theorem data_at_start (prog : List Line) (es : List Ex) (hne : prog ≠ []) (h : ProgData es prog) :
    Pending prog es ((start prog).dline, (start prog).dtok) := Or.inl ⟨rfl, hne, h⟩

/-- `RESTORE` makes all data, and `RESTORE n` the data from line `n` on, the
next to be read. -/
theorem restored_data (prog : List Line) (y : Line) (ls : List Line) (s : St) (L : List Frame)
    (d : List Line × List Tok) (rest : List Tok) (hr : StmtEnd rest) :
    (∀ es, prog ≠ [] → ProgData es prog →
      ∃ d', Reach A prog (cfg (y :: ls) (.kw .krestore :: rest) s L d) (after y ls rest s L d') ∧
        Pending prog es d') ∧
    (∀ (n : Nat) pre l k es, (n : Int) < 2 ^ 63 → prog = pre ++ l :: k → (∀ x ∈ pre, x.num ≠ n) →
      l.num = n → ProgData es (l :: k) →
      ∃ d', Reach A prog (cfg (y :: ls) (.kw .krestore :: .num n :: rest) s L d)
        (after y ls rest s L d') ∧ Pending prog es d') := by
  have hr := stmtEnd_eos hr
  constructor
  · intro es hne h
    refine ⟨([], []), ?_, Or.inl ⟨rfl, hne, h⟩⟩
    refine Reach.step (p := (cfg (y :: ls) rest s L ([], []), .plain)) (by simp) ?_ (finish_after hr)
    show cmdrestore A prog _ = _
    unfold cmdrestore
    exact if_pos hr
  · intro n pre l k es hn hprog hpre hl h
    refine ⟨(l :: k, firstTxt (l :: k)), ?_, pending_line h⟩
    refine Reach.step (p := (cfg (y :: ls) rest s L (l :: k, firstTxt (l :: k)), .plain)) (by simp)
      ?_ (finish_after hr)
    show cmdrestore A prog _ = _
    unfold cmdrestore
    have e1 : iseos (cfg (y :: ls) (.num n :: rest) s L d).tok = false := rfl
    rw [if_neg (by rw [e1]; simp)]
    have e2 : intexpr A (.num n :: rest) s.env = .ok ((n : Int), rest, s.env) :=
      intexpr_num hn (ends_eos hr)
    show (intexpr A (.num n :: rest) s.env).bind _ = _
    rw [e2]
    have e3 : findline (n : Int) prog = some (l :: k) := by
      rw [hprog]
      exact findline_split (fun x hx => by have := hpre x hx; omega) (by omega)
    simp only [Res.bind_ok, e3]
    rfl

/-- A `DATA` statement does nothing when it is executed. -/
theorem data_does_nothing (prog : List Line) (es : List Ex) (items rest : List Tok) (y : Line)
    (ls : List Line) (s : St) (L : List Frame) (d : List Line × List Tok) (h : WritesData es items)
    (hr : StmtEnd rest) :
    Reach A prog (cfg (y :: ls) (.kw .kdata :: (items ++ rest)) s L d) (after y ls rest s L d) := by
  have hr := stmtEnd_eos hr
  refine Reach.step (p := (cfg (y :: ls) rest s L d, .plain)) (by simp) ?_ (finish_after hr)
  show Res.ok (cfg (y :: ls) (skiptoeos (items ++ rest)) s L d, Flag.plain) = _
  rw [skiptoeos_in hr (data_in h)]

/-! ## Jumps by number -/

/-- `GOTO n` goes to the line with that number, out of as many loops as one
likes, whose records stay; if there is no such line, it is an error. -/
theorem goto_line (prog : List Line) (n : Nat) (rest : List Tok) (hr : StmtEnd rest) (y : Line)
    (ls : List Line) (s : St) (L : List Frame) (d : List Line × List Tok) (hn : (n : Int) < 2 ^ 63) :
    (∀ pre l k, prog = pre ++ l :: k → (∀ x ∈ pre, x.num ≠ n) → l.num = n →
      Reach A prog (cfg (y :: ls) (.kw .kgoto :: .num n :: rest) s L d) (top (l :: k) s L d)) ∧
    ((∀ x ∈ prog, x.num ≠ n) →
      step A prog (cfg (y :: ls) (.kw .kgoto :: .num n :: rest) s L d) = .err) := by
  have e1 : intexpr A (.num n :: rest) s.env = .ok ((n : Int), rest, s.env) :=
    intexpr_num hn (ends_eos (stmtEnd_eos hr))
  constructor
  · intro pre l k hprog hpre hl
    refine Reach.step (p := (cfg (l :: k) [] s L d, .goto)) (by simp) ?_ rfl
    show cmdgoto A prog _ = _
    unfold cmdgoto
    show (intexpr A (.num n :: rest) s.env).bind _ = _
    have e3 : findline (n : Int) prog = some (l :: k) := by
      rw [hprog]
      exact findline_split (fun x hx => by have := hpre x hx; omega) (by omega)
    rw [e1]
    simp only [Res.bind_ok, e3]
    rfl
  · intro hno
    show (cmdgoto A prog (cfg (y :: ls) (.num n :: rest) s L d)).bind finish = _
    unfold cmdgoto
    show ((intexpr A (.num n :: rest) s.env).bind _).bind finish = _
    have e3 : findline (n : Int) prog = none :=
      findline_none fun x hx => by have := hno x hx; omega
    rw [e1]
    simp only [Res.bind_ok, e3]
    rfl

/-- `ON x GOTO n1, n2, ...` goes to the line whose number stands in the place
given by the nearest whole number to `x`; if there is no such place, it does
nothing. -/
theorem on_goto (prog : List Line) (e : Ex) (te tn rest : List Tok) (ns : List Nat) (q : ℚ) (j : Int)
    (y : Line) (ls : List Line) (s : St) (L : List Frame) (d : List Line × List Tok)
    (hw : Writes 6 e te) (hn : WritesNums ns tn) (hr : StmtEnd rest) (hd : Declared s.env e)
    (hv : value A s.env e = .ok (.num q)) (hj : nearest q = .ok j) :
    (∀ (i m : Nat) pre l k, j = i + 1 → ns[i]? = some m → (m : Int) < 2 ^ 63 →
      prog = pre ++ l :: k → (∀ x ∈ pre, x.num ≠ m) → l.num = m →
      Reach A prog (cfg (y :: ls) (.kw .kon :: (te ++ .kw .kgoto :: (tn ++ rest))) s L d)
        (top (l :: k) s L d)) ∧
    (j < 1 ∨ (ns.length : Int) < j →
      Reach A prog (cfg (y :: ls) (.kw .kon :: (te ++ .kw .kgoto :: (tn ++ rest))) s L d)
        (after y ls rest s L d)) := by
  have hr := stmtEnd_eos hr
  have hi := intexpr_of (rest := .kw .kgoto :: (tn ++ rest)) hw hd (ends_kw _ _) hv hj
  constructor
  · intro i m pre l k hji hm hm63 hprog hpre hl
    refine Reach.step (p := (cfg (l :: k) [] s L d, .goto)) (by simp) ?_ rfl
    show cmdon A prog _ = _
    unfold cmdon
    show (intexpr A (te ++ .kw .kgoto :: (tn ++ rest)) s.env).bind _ = _
    rw [hi]
    simp only [Res.bind_ok, require, if_true]
    rw [if_neg (by omega)]
    obtain ⟨r, h1, h2⟩ := onList_in hn hr hm
    rw [show (j - 1).toNat = i by omega, h1, Res.bind_ok, if_neg (by simp [iseos])]
    unfold cmdgoto
    show (intexpr A (.num m :: r) s.env).bind _ = _
    rw [intexpr_num hm63 h2]
    have e3 : findline (m : Int) prog = some (l :: k) := by
      rw [hprog]
      exact findline_split (fun x hx => by have := hpre x hx; omega) (by omega)
    simp only [Res.bind_ok, e3]
    rfl
  · intro hout
    refine Reach.step (p := (cfg (y :: ls) rest s L d, .plain)) (by simp) ?_ (finish_after hr)
    show cmdon A prog _ = _
    unfold cmdon
    show (intexpr A (te ++ .kw .kgoto :: (tn ++ rest)) s.env).bind _ = _
    rw [hi]
    simp only [Res.bind_ok, require, if_true]
    by_cases h1 : j < 1
    · rw [if_pos h1, skiptoeos_nums hn hr]; rfl
    · rw [if_neg h1, onList_out hn hr (by omega), Res.bind_ok, if_pos hr]; rfl

/-- `ON x GOSUB n1, n2, ...` with a number in its list calls the subroutine, and
goes on behind the statement.

Missing: a number outside the list, see `Violations`. -/
theorem on_gosub_partial (prog : List Line) (sub : Nat → Option Blk) (hs : HasSubs prog sub) (e : Ex)
    (te tn rest : List Tok) (ns : List Nat) (q : ℚ) (i m : Nat) (b : Blk)
    (y : Line) (ls : List Line) (s s' : St) (L : List Frame) (d : List Line × List Tok)
    (hw : Writes 6 e te) (hn : WritesNums ns tn) (hr : StmtEnd rest) (hd : Declared s.env e)
    (hv : value A s.env e = .ok (.num q)) (hj : nearest q = .ok ((i : Int) + 1))
    (hm : ns[i]? = some m) (hb : sub m = some b) (hrun : Runs A sub (.b b) s s') :
    Reach A prog (cfg (y :: ls) (.kw .kon :: (te ++ .kw .kgosub :: (tn ++ rest))) s L d)
      (after y ls rest s' L d) := by
  have hr := stmtEnd_eos hr
  have hi := intexpr_of (rest := .kw .kgosub :: (tn ++ rest)) hw hd (ends_kw _ _) hv hj
  obtain ⟨hlt, lb, num, k, hf, hwb⟩ := subsOk_of hs m b hb
  have ih := runs_good (subsOk_of hs) hrun (k := ⟨num, [.kw .kreturn]⟩ :: k)
    (L := .gosubF (y :: ls) (.kw .kgosub :: (tn ++ rest)) :: L) (d := d) hwb
  refine Reach.then (Reach.step
    (p := (cfg (lb ++ ⟨num, [.kw .kreturn]⟩ :: k) [] s
      (.gosubF (y :: ls) (.kw .kgosub :: (tn ++ rest)) :: L) d, .goto)) (by simp) ?_ rfl)
    (Reach.then ih ?_)
  · show cmdon A prog _ = _
    unfold cmdon
    show (intexpr A (te ++ .kw .kgosub :: (tn ++ rest)) s.env).bind _ = _
    rw [hi]
    simp only [Res.bind_ok]
    rw [if_neg (by omega)]
    obtain ⟨r, h1, h2⟩ := onList_in hn hr hm
    rw [show ((i : Int) + 1 - 1).toNat = i by omega, h1, Res.bind_ok, if_neg (by simp [iseos])]
    unfold cmdgoto
    show (intexpr A (.num m :: r) s.env).bind _ = _
    rw [intexpr_num hlt h2]
    simp only [Res.bind_ok, hf]
    rfl
  · refine Reach.step (p := (cfg (y :: ls) rest s' L d, .plain)) (by simp) ?_ (finish_after hr)
    show cmdreturn _ = _
    unfold cmdreturn
    have e : skiptoeos (.kw .kgosub :: (tn ++ rest)) = rest := by
      unfold skiptoeos
      rw [if_neg (by simp [iseos])]
      exact skiptoeos_nums hn hr
    show (popGosub (.gosubF (y :: ls) (.kw .kgosub :: (tn ++ rest)) :: L)).bind _ = _
    unfold popGosub
    simp only [Res.bind_ok, e]
    rfl

end Verif.Pbasic
