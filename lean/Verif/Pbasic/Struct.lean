import Verif.Pbasic.Spec

/-!
# Structured programs

Programs built from assignments, `DIM`, `PUNCH`, `GOSUB`, `IF ... THEN ...
ELSE ...` on one line, `FOR`/`NEXT` and `WHILE`/`WEND`: how they are written as
lines of tokens, and what they do, without any stack and without any search
for tokens.
-/

namespace Verif.Pbasic

/-- A statement that stands in one place. -/
inductive Simple where
  | letv (v : V) (e : Ex)
  | lete (v : V) (a : Args) (e : Ex)
  | dim (v : V) (a : Args)
  | punch (es : List Ex)
  | gosub (n : Nat)

/-- The statements of one line. -/
inductive Ln where
  | last (s : Simple)
  | seq (s : Simple) (l : Ln)
  | ifte (c : Ex) (a b : Ln)
  | ift (c : Ex) (a : Ln)

/-- A sequence of lines. -/
inductive Blk where
  | nil
  | line (l : Ln) (k : Blk)
  | loop (v : V) (a b : Ex) (s : Option Ex) (body k : Blk)
  | whil (c : Ex) (body k : Blk)

/-- A line is closed if it does not end in an `IF` without `ELSE`; only a closed
line may stand before an `ELSE`. -/
def closed : Ln → Prop
  | .last _ => True
  | .seq _ l => closed l
  | .ifte _ _ b => closed b
  | .ift _ _ => False

/-- The list behind `PUNCH`: expressions with commas or semicolons between them. -/
inductive WritesItems : List Ex → List Tok → Prop where
  | nil : WritesItems [] []
  | sep {es : List Ex} {t : Tok} {ts : List Tok} (ht : t = .comma ∨ t = .semi)
      (h : WritesItems es ts) : WritesItems es (t :: ts)
  | final {e : Ex} {te : List Tok} (he : Writes 6 e te) : WritesItems [e] te
  | item {e : Ex} {es : List Ex} {te ts : List Tok} {t : Tok} (ht : t = .comma ∨ t = .semi)
      (he : Writes 6 e te) (h : WritesItems es ts) : WritesItems (e :: es) (te ++ t :: ts)

/-- The tokens of a statement; the word `LET` may be left out. -/
inductive WritesS : Simple → List Tok → Prop where
  | letv {v : V} {e : Ex} {te : List Tok} (h : Writes 6 e te) :
      WritesS (.letv v e) (.var v :: .op .eq :: te)
  | letv' {v : V} {e : Ex} {te : List Tok} (h : Writes 6 e te) :
      WritesS (.letv v e) (.kw .klet :: .var v :: .op .eq :: te)
  | lete {v : V} {a : Args} {e : Ex} {ta te : List Tok} (ha : WritesArgs a ta) (h : Writes 6 e te) :
      WritesS (.lete v a e) (.var v :: .lp :: (ta ++ .op .eq :: te))
  | dim {v : V} {a : Args} {ta : List Tok} (ha : WritesArgs a ta) :
      WritesS (.dim v a) (.kw .kdim :: .var v :: .lp :: ta)
  | punch {es : List Ex} {ts : List Tok} (h : WritesItems es ts) :
      WritesS (.punch es) (.kw .kpunch :: ts)
  | gosub (n : Nat) : WritesS (.gosub n) [.kw .kgosub, .num n]

/-- The tokens of a line. -/
inductive WritesLn : Ln → List Tok → Prop where
  | last {s : Simple} {ts : List Tok} (h : WritesS s ts) : WritesLn (.last s) ts
  | seq {s : Simple} {l : Ln} {ts tl : List Tok} (h : WritesS s ts) (hl : WritesLn l tl) :
      WritesLn (.seq s l) (ts ++ .colon :: tl)
  | ifte {c : Ex} {a b : Ln} {tc ta tb : List Tok} (hc : Writes 6 c tc) (hcl : closed a)
      (ha : WritesLn a ta) (hb : WritesLn b tb) :
      WritesLn (.ifte c a b) (.kw .kif :: (tc ++ .kw .kthen :: (ta ++ .kw .kelse :: tb)))
  | ift {c : Ex} {a : Ln} {tc ta : List Tok} (hc : Writes 6 c tc) (ha : WritesLn a ta) :
      WritesLn (.ift c a) (.kw .kif :: (tc ++ .kw .kthen :: ta))

/-- The words `STEP` and the step, which may be left out. -/
inductive WritesStep : Option Ex → List Tok → Prop where
  | none : WritesStep none []
  | some {e : Ex} {te : List Tok} (h : Writes 6 e te) : WritesStep (some e) (.kw .kstep :: te)

/-- The lines of a block, with any line numbers. -/
inductive WritesB : Blk → List Line → Prop where
  | nil : WritesB .nil []
  | line {l : Ln} {k : Blk} {n : Nat} {ts : List Tok} {ls : List Line} (h : WritesLn l ts)
      (hk : WritesB k ls) : WritesB (.line l k) (⟨n, ts⟩ :: ls)
  | loop {v : V} {a b : Ex} {s : Option Ex} {body k : Blk} {n n' : Nat} {ta tb tst : List Tok}
      {lb ls : List Line} (ha : Writes 6 a ta) (hb : Writes 6 b tb) (hs : WritesStep s tst)
      (hbody : WritesB body lb) (hk : WritesB k ls) :
      WritesB (.loop v a b s body k)
        (⟨n, .kw .kfor :: .var v :: .op .eq :: (ta ++ .kw .kto :: (tb ++ tst))⟩ ::
          (lb ++ ⟨n', [.kw .knext, .var v]⟩ :: ls))
  | whil {c : Ex} {body k : Blk} {n n' : Nat} {tc : List Tok} {lb ls : List Line}
      (hc : Writes 6 c tc) (hbody : WritesB body lb) (hk : WritesB k ls) :
      WritesB (.whil c body k)
        (⟨n, .kw .kwhile :: tc⟩ :: (lb ++ ⟨n', [.kw .kwend]⟩ :: ls))

/-- The subroutines stand in the program: from the first line of that number on
come the lines of the block and a line with `RETURN`.  (Line numbers are of the
type `long`.) -/
def HasSubs (prog : List Line) (sub : Nat → Option Blk) : Prop :=
  ∀ n b, sub n = some b → (n : Int) < 2 ^ 63 ∧ ∃ pre ls num k,
    prog = pre ++ (ls ++ ⟨num, [.kw .kreturn]⟩ :: k) ∧ (∀ l ∈ pre, l.num ≠ n) ∧
    (∃ l r, ls ++ ⟨num, [.kw .kreturn]⟩ :: k = l :: r ∧ l.num = n) ∧ WritesB b ls

/-- What a program changes: the variables, and the values punched. -/
structure St where
  env : Env
  outp : List Val

/-- A value is put into a cell; the kind of the value has to be that of the
variable. -/
def put (σ : Env) (v : V) (k : Nat) (x : Val) (σ' : Env) : Prop :=
  (∀ w, w ≠ v → σ' w = σ w) ∧ (σ' v).dims = (σ v).dims ∧
  match x with
  | .num q => v.isStr = false ∧ (σ' v).strCell = (σ v).strCell ∧
      ∀ i, (σ' v).numCell i = if i = k then q else (σ v).numCell i
  | .str s => v.isStr = true ∧ (σ' v).numCell = (σ v).numCell ∧
      ∀ i, (σ' v).strCell i = if i = k then s else (σ v).strCell i

/-- Is the variable of a `FOR` loop still within its limit? -/
def Inside (step limit x : ℚ) : Prop :=
  (0 < step → x ≤ limit) ∧ (step < 0 → limit ≤ x) ∧ (step = 0 → x = limit)

/-- The values of a list of expressions. -/
inductive Values (A : Arith) (σ : Env) : List Ex → List Val → Prop where
  | nil : Values A σ [] []
  | cons {e : Ex} {es : List Ex} {v : Val} {vs : List Val} (hd : Declared σ e)
      (h : value A σ e = .ok v) (hs : Values A σ es vs) : Values A σ (e :: es) (v :: vs)

/-- The dimensions of a `DIM`: one more than the whole number nearest to each
value, which may not be negative. -/
inductive Dims (A : Arith) (σ : Env) : Args → List Nat → Prop where
  | one {e : Ex} {q : ℚ} {j : Nat} (hd : Declared σ e) (h : value A σ e = .ok (.num q))
      (hj : nearest q = .ok (j : Int)) : Dims A σ (.one e) [j + 1]
  | more {e : Ex} {a : Args} {q : ℚ} {j : Nat} {ds : List Nat} (hd : Declared σ e)
      (h : value A σ e = .ok (.num q)) (hj : nearest q = .ok (j : Int)) (ha : Dims A σ a ds) :
      Dims A σ (.more e a) ((j + 1) :: ds)

/-- The step of a `FOR` loop, 1 if it is left out. -/
def StepIs (A : Arith) (σ : Env) : Option Ex → ℚ → Prop
  | none, step => step = 1
  | some e, step => Declared σ e ∧ value A σ e = .ok (.num step)

/-- The parts of a program: a statement, a line, a block, and the rest of a
loop from the test of its condition on. -/
inductive Code where
  | s (s : Simple)
  | l (l : Ln)
  | b (b : Blk)
  | iter (v : V) (limit step : ℚ) (body : Blk)
  | wloop (c : Ex) (body : Blk)

/-- What a structured program does; `sub n` is the subroutine that starts at
line `n`. -/
inductive Runs (A : Arith) (sub : Nat → Option Blk) : Code → St → St → Prop where
  | letv {v : V} {e : Ex} {s : St} {x : Val} {σ' : Env} (h0 : (s.env v).dims = [])
      (hd : Declared s.env e) (h : value A s.env e = .ok x) (hp : put s.env v 0 x σ') :
      Runs A sub (.s (.letv v e)) s ⟨σ', s.outp⟩
  | lete {v : V} {a : Args} {e : Ex} {s : St} {k : Nat} {x : Val} {σ' : Env}
      (hv : Declared s.env (.elem v a)) (hk : cellOf A s.env (s.env v).dims 0 a = .ok k)
      (hd : Declared s.env e) (h : value A s.env e = .ok x) (hp : put s.env v k x σ') :
      Runs A sub (.s (.lete v a e)) s ⟨σ', s.outp⟩
  | dim {v : V} {a : Args} {s : St} {ds : List Nat} {σ' : Env} (h0 : (s.env v).dims = [])
      (hd : Dims A s.env a ds) (h4 : ds.length ≤ 4) (hm : ds.prod < 2 ^ 61)
      (hv : σ' v = ⟨ds, fun _ => 0, fun _ => []⟩) (ho : ∀ w, w ≠ v → σ' w = s.env w) :
      Runs A sub (.s (.dim v a)) s ⟨σ', s.outp⟩
  | punch {es : List Ex} {s : St} {vs : List Val} (h : Values A s.env es vs) :
      Runs A sub (.s (.punch es)) s ⟨s.env, s.outp ++ vs⟩
  | gosub {n : Nat} {b : Blk} {s s' : St} (hn : sub n = some b) (h : Runs A sub (.b b) s s') :
      Runs A sub (.s (.gosub n)) s s'
  | last {x : Simple} {s s' : St} (h : Runs A sub (.s x) s s') : Runs A sub (.l (.last x)) s s'
  | seq {x : Simple} {l : Ln} {s s1 s' : St} (h : Runs A sub (.s x) s s1)
      (hl : Runs A sub (.l l) s1 s') : Runs A sub (.l (.seq x l)) s s'
  | thenElse {c : Ex} {a b : Ln} {s s' : St} {q : ℚ} (hd : Declared s.env c)
      (hc : value A s.env c = .ok (.num q)) (hq : q ≠ 0) (h : Runs A sub (.l a) s s') :
      Runs A sub (.l (.ifte c a b)) s s'
  | else_ {c : Ex} {a b : Ln} {s s' : St} (hd : Declared s.env c)
      (hc : value A s.env c = .ok (.num 0)) (h : Runs A sub (.l b) s s') :
      Runs A sub (.l (.ifte c a b)) s s'
  | then_ {c : Ex} {a : Ln} {s s' : St} {q : ℚ} (hd : Declared s.env c)
      (hc : value A s.env c = .ok (.num q)) (hq : q ≠ 0) (h : Runs A sub (.l a) s s') :
      Runs A sub (.l (.ift c a)) s s'
  | skip {c : Ex} {a : Ln} {s : St} (hd : Declared s.env c)
      (hc : value A s.env c = .ok (.num 0)) : Runs A sub (.l (.ift c a)) s s
  | nil {s : St} : Runs A sub (.b .nil) s s
  | line {l : Ln} {k : Blk} {s s1 s' : St} (h : Runs A sub (.l l) s s1)
      (hk : Runs A sub (.b k) s1 s') : Runs A sub (.b (.line l k)) s s'
  | loop {v : V} {a b : Ex} {st : Option Ex} {body k : Blk} {s s1 s' : St} {x limit step : ℚ}
      {σ1 : Env} (h0 : (s.env v).dims = []) (hda : Declared s.env a)
      (ha : value A s.env a = .ok (.num x)) (hp : put s.env v 0 (.num x) σ1)
      (hdb : Declared σ1 b) (hb : value A σ1 b = .ok (.num limit))
      (hst : StepIs A σ1 st step)
      (hi : Runs A sub (.iter v limit step body) ⟨σ1, s.outp⟩ s1) (hk : Runs A sub (.b k) s1 s') :
      Runs A sub (.b (.loop v a b st body k)) s s'
  | iterEnd {v : V} {limit step : ℚ} {body : Blk} {s : St}
      (h : ¬ Inside step limit ((s.env v).numCell 0)) :
      Runs A sub (.iter v limit step body) s s
  | iterMore {v : V} {limit step : ℚ} {body : Blk} {s s1 s' : St} {σ2 : Env}
      (h : Inside step limit ((s.env v).numCell 0)) (hb : Runs A sub (.b body) s s1)
      (h0 : (s1.env v).dims = [])
      (hp : put s1.env v 0 (.num ((s1.env v).numCell 0 + step)) σ2)
      (hi : Runs A sub (.iter v limit step body) ⟨σ2, s1.outp⟩ s') :
      Runs A sub (.iter v limit step body) s s'
  | whil {c : Ex} {body k : Blk} {s s1 s' : St} (h : Runs A sub (.wloop c body) s s1)
      (hk : Runs A sub (.b k) s1 s') : Runs A sub (.b (.whil c body k)) s s'
  | wEnd {c : Ex} {body : Blk} {s : St} (hd : Declared s.env c)
      (hc : value A s.env c = .ok (.num 0)) : Runs A sub (.wloop c body) s s
  | wMore {c : Ex} {body : Blk} {s s1 s' : St} {q : ℚ} (hd : Declared s.env c)
      (hc : value A s.env c = .ok (.num q)) (hq : q ≠ 0) (hb : Runs A sub (.b body) s s1)
      (h : Runs A sub (.wloop c body) s1 s') : Runs A sub (.wloop c body) s s'

end Verif.Pbasic
