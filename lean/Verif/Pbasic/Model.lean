import Mathlib.Data.Rat.Floor
import Mathlib.Data.Int.Bitwise

/-!
# The BASIC interpreter

`USER_PUNCH`, `USER_PRINT`, `RATES` and `CALCULATE_VALUES` carry BASIC
programs.  This file models the interpreter of
`/repo/src/IPhreeqcPhast/IPhreeqc/phreeqcpp/PBasic.cpp` from the tokens of a
line on: the expression parser, which evaluates while it parses, the variables
and arrays, the list of program lines, and the statements that move control.

Simplified: a double is a rational number, so rounding, infinities and NaN are
not modelled; an operation that would produce a NaN leaves the model (`out`).
`exp(y*log(x))` and the functions of one number (`SIN`, `EXP`, ...) are
parameters (`Arith`).  The functions of the chemistry (`TOT`, `MOL`, ...), the
string functions, `VAL`, `PUT`, `GET`, `PRINT`, `SAVE` and the commands that edit
the program leave the model (`out`).  The division of a text into tokens is in
`Lex.lean`.
The flags `phreeqci_gui` (no user interface) and `parse_all` (which only
replaces chemistry values by 1) are false.
-/

namespace Verif.Pbasic

/-- Outcome of a part of the interpreter: a value, an error message
(`errormsg`, `PBasic.cpp:1767-1780`, which throws `PBasicStop` and so ends the
run of the program), undefined behaviour, or something outside the model. -/
inductive Res (α : Type) where
  | ok (a : α)
  | err
  | ub
  | out
  deriving DecidableEq, Repr

/-- Sequencing of outcomes. -/
def Res.bind {α β : Type} : Res α → (α → Res β) → Res β
  | .ok a, f => f a
  | .err, _ => .err
  | .ub, _ => .ub
  | .out, _ => .out

/-- A variable record: its name and whether the name ends in `$`
(`PBasic.h:46-66`, `PBasic.cpp:770-802`: one record for each name, found
again by `strcmp`). -/
structure V where
  name : String
  isStr : Bool
  deriving DecidableEq, Repr

/-- The operators of two operands, `PBasic.h:146-165`. -/
inductive Op where
  | pow | mul | div | mod | add | sub
  | eq | lt | gt | le | ge | ne | and | or | xor
  deriving DecidableEq, Repr

/-- The words of statements that are modelled, `PBasic.h:185-216`. -/
inductive Kw where
  | klet | kgoto | kif | kthen | kelse | kfor | kto | kstep | knext | kwhile
  | kwend | kgosub | kreturn | kread | kdata | krestore | kon | kdim | kend
  | krem | kpunch
  deriving DecidableEq, Repr

/-- A token, `PBasic.h:68-84` with the kinds of `PBasic.h:140-216`.  `fn k` is
one of the functions of one number, `other` any token outside the model. -/
inductive Tok where
  | var (v : V)
  | num (q : ℚ)
  | str (s : List Char)
  | op (o : Op)
  | lp | rp | comma | semi | colon
  | not
  | fn (k : Nat)
  | kw (k : Kw)
  | other
  deriving DecidableEq, Repr

/-- A value, `PBasic.h:94-109`. -/
inductive Val where
  | num (q : ℚ)
  | str (s : List Char)
  deriving DecidableEq, Repr

/-- A variable, `PBasic.h:46-66`: its dimensions (none for a simple variable)
and its cells, row after row; a simple variable is cell 0. -/
structure Var where
  dims : List Nat
  numCell : Nat → ℚ
  strCell : Nat → List Char

/-- All variables. -/
abbrev Env := V → Var

/-- A variable after `clearvar`, `PBasic.cpp:446-476`. -/
def Var.clear : Var := ⟨[], fun _ => 0, fun _ => []⟩

/-- A cell of a variable, `PBasic.cpp:2112-2135`. -/
def Env.read (σ : Env) (v : V) (k : Nat) : Val :=
  if v.isStr then .str ((σ v).strCell k) else .num ((σ v).numCell k)

/-- `*v->UU.U0.val = d_value;`, `PBasic.cpp:6126-6128`. -/
def Env.setNum (σ : Env) (v : V) (k : Nat) (q : ℚ) : Env := fun w =>
  if w = v then { σ v with numCell := fun i => if i = k then q else (σ v).numCell i } else σ w

/-- `*v->UU.U1.sval = mynew;`, `PBasic.cpp:6132-6137`. -/
def Env.setStr (σ : Env) (v : V) (k : Nat) (s : List Char) : Env := fun w =>
  if w = v then { σ v with strCell := fun i => if i = k then s else (σ v).strCell i } else σ w

/-- A fresh array of the given dimensions, `PBasic.cpp:2018-2033`,
`PBasic.cpp:6726-6755`. -/
def Env.alloc (σ : Env) (v : V) (ds : List Nat) : Env := fun w =>
  if w = v then ⟨ds, fun _ => 0, fun _ => []⟩ else σ w

/-- What the interpreter takes from the mathematical library: `pw x y` is
`exp(y * log(x))` for a positive `x`; `fn k x` a function of one number, which
is `none` where the library gives a NaN. -/
structure Arith where
  pw : ℚ → ℚ → ℚ
  fn : Nat → ℚ → Option ℚ

/-- `n.stringval` must be false, `PBasic.cpp:1827-1835`, `PBasic.cpp:1882-1891`. -/
def Val.real : Val → Res ℚ
  | .num q => .ok q
  | .str _ => .err

/-- `n.stringval` must be true, `PBasic.cpp:1893-1903`. -/
def Val.text : Val → Res (List Char)
  | .str s => .ok s
  | .num _ => .err

/-- Conversion of a double to `long`: undefined unless the value fits. -/
def fitLong (z : Int) : Res Int :=
  if -9223372036854775808 ≤ z ∧ z ≤ 9223372036854775807 then .ok z else .ub

/-- `(long) x` cuts off the fraction. -/
def toLong (x : ℚ) : Res Int := fitLong (if 0 ≤ x then x.floor else x.ceil)

/-- `(long) floor(x + 0.5)`, `PBasic.cpp:1876-1880`, `PBasic.cpp:1919-1923`. -/
def roundLong (x : ℚ) : Res Int := fitLong (x + 1 / 2).floor

/-- `fmod(x, y)` for a `y` other than zero. -/
def fmod (x y : ℚ) : ℚ := x - y * (if 0 ≤ x / y then (x / y).floor else (x / y).ceil)

/-- `strcmp`, on characters. -/
def strcmp : List Char → List Char → Ordering
  | [], [] => .eq
  | [], _ :: _ => .lt
  | _ :: _, [] => .gt
  | a :: s, b :: t => if a = b then strcmp s t else if a.toNat < b.toNat then .lt else .gt

/-- The three comparisons of numbers, `PBasic.cpp:5232-5249`. -/
def cmpNum (x y : ℚ) : Ordering := if x = y then .eq else if x < y then .lt else .gt

/-- Which operator holds after which comparison, `PBasic.cpp:5204-5249`. -/
def relBit : Op → Ordering → Bool
  | .eq, .eq => true
  | .ge, .eq => true
  | .le, .eq => true
  | .lt, .lt => true
  | .le, .lt => true
  | .ne, .lt => true
  | .gt, .gt => true
  | .ge, .gt => true
  | .ne, .gt => true
  | _, _ => false

/-- `n.UU.val = f;`, `PBasic.cpp:5252-5253`. -/
def ofBool (b : Bool) : Val := .num (if b then 1 else 0)

/-- The level on which an operator is parsed: 1 `upexpr`, 2 `term`, 3 `sexpr`,
4 `relexpr`, 5 `andexpr`, 6 `expr`. -/
def Op.level : Op → Nat
  | .pow => 1
  | .mul => 2
  | .div => 2
  | .mod => 2
  | .add => 3
  | .sub => 3
  | .eq => 4
  | .lt => 4
  | .gt => 4
  | .le => 4
  | .ge => 4
  | .ne => 4
  | .and => 5
  | .or => 6
  | .xor => 6

/-- What an operator does with its operands: `upexpr` `PBasic.cpp:5041-5064`,
`term` `PBasic.cpp:5085-5117` (without the warning about a division by zero),
`sexpr` `PBasic.cpp:5137-5179`, `relexpr` `PBasic.cpp:5200-5253`, `andexpr`
`PBasic.cpp:5268-5270`, `expr` `PBasic.cpp:5290-5295`. -/
def applyOp (A : Arith) : Op → Val → Val → Res Val
  | .pow, .num x, .num y =>
      if 0 ≤ x then
        (if 0 < x then .ok (.num (A.pw x y)) else .ok (.num x))
      else
        (toLong y).bind fun z =>
          if y ≠ (z : ℚ) then .err
          else .ok (.num (if z % 2 = 0 then A.pw (-x) y else -(A.pw (-x) y)))
  | .mul, .num x, .num y => .ok (.num (x * y))
  | .div, .num x, .num y => if y ≠ 0 then .ok (.num (x / y)) else .ok (.num 0)
  | .mod, .num x, .num y =>
      if x ≠ 0 then
        (if y = 0 then .out
         else .ok (.num (|x| / x * fmod (|x| + 1 / 100000000000000) y)))
      else .ok (.num 0)
  | .add, .num x, .num y => .ok (.num (x + y))
  | .add, .str s, .str t => .ok (.str (s ++ t))
  | .sub, .num x, .num y => .ok (.num (x - y))
  | .and, .num x, .num y => (toLong x).bind fun a => (toLong y).bind fun b =>
      .ok (.num ((Int.land a b : Int) : ℚ))
  | .or, .num x, .num y => (toLong x).bind fun a => (toLong y).bind fun b =>
      .ok (.num ((Int.lor a b : Int) : ℚ))
  | .xor, .num x, .num y => (toLong x).bind fun a => (toLong y).bind fun b =>
      .ok (.num ((Int.xor a b : Int) : ℚ))
  | o, .num x, .num y => .ok (ofBool (relBit o (cmpNum x y)))
  | o, .str s, .str t => if o.level = 4 then .ok (ofBool (relBit o (strcmp s t))) else .err
  | _, _, _ => .err

/-- `require`, `PBasic.cpp:1925-1950`. -/
def require (k : Tok) : List Tok → Res (List Tok)
  | t :: r => if t = k then .ok r else .err
  | [] => .err

/-- `skipparen`, `PBasic.cpp:1953-1976`: it stops at the next `)` or comma, and
after a nested `(` it runs itself and steps over the token at which that run
stopped.  The first argument bounds the number of steps; the length of the
list suffices. -/
def skipparen : Nat → List Tok → Res (List Tok)
  | 0, _ => .err
  | _ + 1, [] => .err
  | f + 1, t :: r =>
      if t = .rp ∨ t = .comma then .ok (t :: r)
      else if t = .lp then (skipparen f r).bind fun r' => skipparen f r'.tail
      else skipparen f r

/-- The dimensions that the first use of an array gives it,
`PBasic.cpp:2003-2017`: from a `(` or a comma on, 11 for each subscript, at
most `maxdims` = 4. -/
def autodims : Nat → Nat → List Tok → Res (List Nat)
  | 0, _, _ => .err
  | f + 1, i, ts =>
      if 4 ≤ i then .err
      else (skipparen (ts.length + 1) ts.tail).bind fun r =>
        match r with
        | .rp :: _ => .ok (List.replicate (i + 1) 11)
        | _ => autodims f (i + 1) r

/-- `v->numdims == 0` at a `(`: the array is made, `PBasic.cpp:2001-2035`. -/
def autodim (v : V) (ts : List Tok) (σ : Env) : Res Env :=
  if (σ v).dims = [] then (autodims 5 0 ts).bind fun ds => .ok (σ.alloc v ds) else .ok σ

/-- `-realfactor`, `realfactor`, `~intfactor` and the functions of one number,
`PBasic.cpp:2143-2170` and `PBasic.cpp:4886-4943`. -/
def applyFn (A : Arith) : Tok → Val → Res Val
  | .op .sub, n => n.real.bind fun x => .ok (.num (-x))
  | .op .add, n => n.real.bind fun x => .ok (.num x)
  | .not, n => n.real.bind fun x => (roundLong x).bind fun z => .ok (.num ((-z - 1 : Int) : ℚ))
  | .fn k, n => n.real.bind fun x =>
      match A.fn k x with
      | some y => .ok (.num y)
      | none => .out
  | _, _ => .err

/-- Does this token take one factor as its operand? -/
def isPrefix : Tok → Bool
  | .op .sub => true
  | .op .add => true
  | .not => true
  | .fn _ => true
  | _ => false

mutual
/-- The parser and evaluator.  The second argument is the level: 0 is `factor`
(`PBasic.cpp:2056-5031`), 1 `upexpr`, 2 `term`, 3 `sexpr`, 4 `relexpr`,
5 `andexpr`, 6 `expr` (`PBasic.cpp:5033-5298`).  The first argument bounds the
depth of the calls; `fuelFor` suffices. -/
def ev (A : Arith) : Nat → Nat → List Tok → Env → Res (Val × List Tok × Env)
  | 0, _, _, _ => .out
  | f + 1, 0, ts, σ =>
      match ts with
      | [] => .err
      | .num q :: r => .ok (.num q, r, σ)
      | .str s :: r => .ok (.str s, r, σ)
      | .var v :: r => (findvar A f v r σ).bind fun p => .ok (p.2.2.read v p.1, p.2.1, p.2.2)
      | .lp :: r => (ev A f 6 r σ).bind fun p => (require .rp p.2.1).bind fun r' => .ok (p.1, r', p.2.2)
      | .other :: _ => .out
      | t :: r =>
          if isPrefix t then
            (ev A f 0 r σ).bind fun p => (applyFn A t p.1).bind fun n => .ok (n, p.2.1, p.2.2)
          else .err
  | f + 1, l + 1, ts, σ => (ev A f l ts σ).bind fun p => loop A f (l + 1) p.1 p.2.1 p.2.2

/-- The `while` loop of each of the levels 1 to 6, `PBasic.cpp:5039-5065`,
`5077-5118`, `5130-5180`, `5193-5254`, `5264-5271`, `5283-5296`.  The right
operand of `^` is an `upexpr`, that of any other operator a phrase of the next
lower level. -/
def loop (A : Arith) : Nat → Nat → Val → List Tok → Env → Res (Val × List Tok × Env)
  | 0, _, _, _, _ => .out
  | f + 1, l, n, ts, σ =>
      match ts with
      | .op o :: r =>
          if o.level = l then
            (if l = 1 then n.real.bind fun _ => ev A f 1 r σ else ev A f (l - 1) r σ).bind fun p =>
              (applyOp A o n p.1).bind fun n' => loop A f l n' p.2.1 p.2.2
          else .ok (n, ts, σ)
      | _ => .ok (n, ts, σ)

/-- `findvar` after the name, `PBasic.cpp:1995-2054`: the cell of the variable
and what follows.  A cell outside the allocated array would be undefined
behaviour. -/
def findvar (A : Arith) : Nat → V → List Tok → Env → Res (Nat × List Tok × Env)
  | 0, _, _, _ => .out
  | f + 1, v, ts, σ =>
      match ts with
      | .lp :: r =>
          (autodim v ts σ).bind fun σ' =>
            (subscripts A f (σ' v).dims 0 r σ').bind fun p =>
              if p.1 < ((σ' v).dims).prod then .ok p else .ub
      | _ => if (σ v).dims ≠ [] then .err else .ok (0, ts, σ)

/-- The subscripts, `PBasic.cpp:2036-2048`. -/
def subscripts (A : Arith) : Nat → List Nat → Nat → List Tok → Env → Res (Nat × List Tok × Env)
  | 0, _, _, _, _ => .out
  | _ + 1, [], k, ts, σ => (require .rp ts).bind fun r => .ok (k, r, σ)
  | f + 1, d :: ds, k, ts, σ =>
      (ev A f 6 ts σ).bind fun p =>
        p.1.real.bind fun x => (roundLong x).bind fun j =>
          if j < 0 ∨ (d : Int) ≤ j then .err
          else if ds = [] then subscripts A f ds (k * d + j.toNat) p.2.1 p.2.2
          else (require .comma p.2.1).bind fun r => subscripts A f ds (k * d + j.toNat) r p.2.2
end

/-- A depth of calls that suffices for the tokens. -/
def fuelFor (ts : List Tok) : Nat := 10 * ts.length + 20

/-- `expr`, `PBasic.cpp:5275-5298`. -/
def expr (A : Arith) (ts : List Tok) (σ : Env) : Res (Val × List Tok × Env) :=
  ev A (fuelFor ts) 6 ts σ

/-- `realexpr`, `PBasic.cpp:1882-1891`. -/
def realexpr (A : Arith) (ts : List Tok) (σ : Env) : Res (ℚ × List Tok × Env) :=
  (expr A ts σ).bind fun p => p.1.real.bind fun x => .ok (x, p.2)

/-- `strexpr`, `PBasic.cpp:1893-1903`. -/
def strexpr (A : Arith) (ts : List Tok) (σ : Env) : Res (List Char × List Tok × Env) :=
  (expr A ts σ).bind fun p => p.1.text.bind fun x => .ok (x, p.2)

/-- `intexpr`, `PBasic.cpp:1919-1923`. -/
def intexpr (A : Arith) (ts : List Tok) (σ : Env) : Res (Int × List Tok × Env) :=
  (realexpr A ts σ).bind fun p => (roundLong p.1).bind fun z => .ok (z, p.2)

/-- `findvar` at a variable token, `PBasic.cpp:1986-1994`. -/
def lvalue (A : Arith) (ts : List Tok) (σ : Env) : Res ((V × Nat) × List Tok × Env) :=
  match ts with
  | .var v :: r => (findvar A (fuelFor ts) v r σ).bind fun p => .ok ((v, p.1), p.2)
  | _ => .err

/-! ## Program lines -/

/-- A program line, `PBasic.h:86-92`. -/
structure Line where
  num : Nat
  txt : List Tok
  deriving DecidableEq, Repr

/-- `parseinput` with a line number other than zero, `PBasic.cpp:1725-1762`:
the line goes before the first line with a larger number, replaces the line
with the same number, and without a text only removes it. -/
def enter (n : Nat) (txt : List Tok) : List Line → List Line
  | [] => if txt = [] then [] else [⟨n, txt⟩]
  | l :: ls =>
      if l.num < n then l :: enter n txt ls
      else if l.num = n then (if txt = [] then ls else ⟨n, txt⟩ :: ls)
      else (if txt = [] then l :: ls else ⟨n, txt⟩ :: l :: ls)

/-- `findline`, `PBasic.cpp:5328-5337`: the line and all that follow it. -/
def findline (n : Int) : List Line → Option (List Line)
  | [] => none
  | l :: ls => if (l.num : Int) = n then some (l :: ls) else findline n ls

/-- `cmddel` for one range of numbers, `PBasic.cpp:5749-5772`. -/
def delRange (n1 n2 : Nat) : List Line → List Line
  | [] => []
  | l :: ls => if n2 < l.num then l :: ls
      else if n1 ≤ l.num then delRange n1 n2 ls else l :: delRange n1 n2 ls

/-! ## Statements -/

/-- A record of the loop stack, `PBasic.h:111-125` (`looprec`): where to go back
to, and for a `FOR` loop its variable, limit and step. -/
inductive Frame where
  | forF (home : List Line) (tok : List Tok) (v : V) (max step : ℚ)
  | whileF (home : List Line) (tok : List Tok)
  | gosubF (home : List Line) (tok : List Tok)
  deriving DecidableEq, Repr

/-- The interpreter between two statements.  `ln` is `stmtline` with all lines
behind it (empty: `NULL`, the program has ended), `tok` the tokens of the line
still to execute; `dline` and `dtok` are the place of the next `READ`
(`dline` empty: `NULL`); `outp` the values punched so far. -/
structure M where
  ln : List Line
  tok : List Tok
  env : Env
  loops : List Frame
  dline : List Line
  dtok : List Tok
  outp : List Val

/-- `iseos`, `PBasic.cpp:5314-5319`. -/
def iseos : List Tok → Bool
  | [] => true
  | .kw .kelse :: _ => true
  | .colon :: _ => true
  | _ => false

/-- `skiptoeos`, `PBasic.cpp:5321-5326`. -/
def skiptoeos : List Tok → List Tok
  | [] => []
  | t :: r => if iseos (t :: r) then t :: r else skiptoeos r

/-- How a statement ends: normally, with `gotoflag`, or with `elseflag`. -/
inductive Flag where
  | plain | goto | els
  deriving DecidableEq, Repr

/-- The tokens of the first of the lines. -/
def firstTxt : List Line → List Tok
  | [] => []
  | l :: _ => l.txt

/-- The end of the inner loop of `exec`, `PBasic.cpp:7030-7043`: left-over
tokens are an error; at the end of the line the next line follows. -/
def finish (p : M × Flag) : Res M :=
  if p.2 ≠ .els ∧ iseos p.1.tok = false then .err
  else if p.1.tok ≠ [] then .ok p.1
  else
    let ln := if p.2 = .goto then p.1.ln else p.1.ln.tail
    .ok { p.1 with ln := ln, tok := firstTxt ln }

/-- `cmdlet`, `PBasic.cpp:6101-6138`. -/
def cmdlet (A : Arith) (m : M) : Res (M × Flag) :=
  (lvalue A m.tok m.env).bind fun p =>
    (require (.op .eq) p.2.1).bind fun r =>
      if p.1.1.isStr then
        (strexpr A r p.2.2).bind fun q =>
          .ok ({ m with tok := q.2.1, env := q.2.2.setStr p.1.1 p.1.2 q.1 }, .plain)
      else
        (realexpr A r p.2.2).bind fun q =>
          .ok ({ m with tok := q.2.1, env := q.2.2.setNum p.1.1 p.1.2 q.1 }, .plain)

/-- `cmdgoto`, `PBasic.cpp:6140-6146`, with `mustfindline`,
`PBasic.cpp:5338-5366`. -/
def cmdgoto (A : Arith) (prog : List Line) (m : M) : Res (M × Flag) :=
  (intexpr A m.tok m.env).bind fun p =>
    match findline p.1 prog with
    | none => .err
    | some ln => .ok ({ m with ln := ln, tok := [], env := p.2.2 }, .goto)

/-- The `do` loop of a false `IF`, `PBasic.cpp:6158-6170`: to behind the `ELSE`
of this `IF`, or to the end of the line. -/
def skipIf : Int → List Tok → List Tok
  | _, [] => []
  | i, t :: r =>
      let i' := if t = .kw .kif then i + 1 else if t = .kw .kelse then i - 1 else i
      if i' < 0 then r else skipIf i' r

/-- `cmdif`, `PBasic.cpp:6148-6176`. -/
def cmdif (A : Arith) (prog : List Line) (m : M) : Res (M × Flag) :=
  (realexpr A m.tok m.env).bind fun p =>
    (require (.kw .kthen) p.2.1).bind fun r =>
      let t := if p.1 = 0 then skipIf 0 r else r
      match t with
      | .num _ :: _ => cmdgoto A prog { m with tok := t, env := p.2.2 }
      | _ => .ok ({ m with tok := t, env := p.2.2 }, .els)

/-- Is the next token this variable? -/
def nextIs (v : V) : List Tok → Bool
  | .var w :: _ => w = v
  | _ => false

/-- The search for the end of a `FOR` loop in one line,
`PBasic.cpp:6266-6284`: either the place behind the `NEXT`, or the counts at
the end of the line. -/
def scanFor (v : V) : Int → Int → List Tok → List Tok ⊕ (Int × Int)
  | i, j, [] => .inr (i, j)
  | i, j, t :: r =>
      let i' := if t = .kw .kfor ∧ nextIs v r = false then i + 1
        else if t = .kw .knext ∧ nextIs v r = false then i - 1 else i
      let j' := if t = .kw .kfor ∧ nextIs v r = true then j + 1
        else if t = .kw .knext ∧ nextIs v r = true then j - 1 else j
      if i' < 0 ∨ j' < 0 then .inl r else scanFor v i' j' r

/-- The search over the lines, `PBasic.cpp:6249-6284`. -/
def skipFor (v : V) : Int → Int → List Line → List Tok → Res (List Line × List Tok)
  | i, j, ln, t =>
      match scanFor v i j t with
      | .inl r => .ok (ln, r)
      | .inr c =>
          match ln with
          | _ :: l :: ls => skipFor v c.1 c.2 (l :: ls) l.txt
          | _ => .err
  termination_by _ _ ln _ => ln.length

/-- `cmdfor`, `PBasic.cpp:6218-6298`.  A loop over an element of an array
(whose `NEXT` steps the element used last) is outside the model. -/
def cmdfor (A : Arith) (m : M) : Res (M × Flag) :=
  (lvalue A m.tok m.env).bind fun p =>
    if p.1.1.isStr then .err
    else if (p.2.2 p.1.1).dims ≠ [] then .out
    else (require (.op .eq) p.2.1).bind fun r1 =>
      (realexpr A r1 p.2.2).bind fun a =>
        (require (.kw .kto) a.2.1).bind fun r2 =>
          let σ1 := a.2.2.setNum p.1.1 0 a.1
          (realexpr A r2 σ1).bind fun b =>
            (match b.2.1 with
              | .kw .kstep :: r3 => realexpr A r3 b.2.2
              | r3 => .ok (1, r3, b.2.2)).bind fun s =>
              let x := (s.2.2 p.1.1).numCell 0
              if (s.2.2 p.1.1).dims ≠ [] then .out
              else if (0 ≤ s.1 ∧ b.1 < x) ∨ (s.1 ≤ 0 ∧ x < b.1) then
                (skipFor p.1.1 0 0 m.ln s.2.1).bind fun q =>
                  .ok ({ m with ln := q.1, tok := skiptoeos q.2, env := s.2.2 }, .plain)
              else
                .ok ({ m with tok := s.2.1, env := s.2.2,
                              loops := .forF m.ln s.2.1 p.1.1 b.1 s.1 :: m.loops }, .plain)

/-- The search for the loop of a `NEXT`, `PBasic.cpp:6311-6331`: records of
other loops are thrown away. -/
def popFor (v : Option V) : List Frame → Res (List Frame)
  | [] => .err
  | .gosubF _ _ :: _ => .err
  | .forF h t w mx st :: fs =>
      if v = none ∨ v = some w then .ok (.forF h t w mx st :: fs) else popFor v fs
  | .whileF _ _ :: fs => popFor v fs

/-- `cmdnext`, `PBasic.cpp:6300-6346`. -/
def cmdnext (A : Arith) (m : M) : Res (M × Flag) :=
  (if iseos m.tok then Res.ok ((none : Option V), m.tok, m.env)
    else (lvalue A m.tok m.env).bind fun p => .ok (some p.1.1, p.2)).bind fun p =>
    (popFor p.1 m.loops).bind fun fs =>
      match fs with
      | .forF h t w mx st :: fs' =>
          if (p.2.2 w).dims ≠ [] then .out
          else
            let σ := p.2.2.setNum w 0 ((p.2.2 w).numCell 0 + st)
            let x := (σ w).numCell 0
            if (st < 0 ∨ x ≤ mx) ∧ (0 < st ∨ mx ≤ x) then
              .ok ({ m with ln := h, tok := t, env := σ, loops := fs }, .plain)
            else .ok ({ m with tok := p.2.1, env := σ, loops := fs' }, .plain)
      | _ => .err

/-- `skiploop` in one line, `PBasic.cpp:6206-6212`. -/
def scanLoop (up dn : Kw) : Int → List Tok → List Tok ⊕ Int
  | i, [] => .inr i
  | i, t :: r =>
      let i' := if t = .kw up then i + 1 else if t = .kw dn then i - 1 else i
      if i' < 0 then .inl r else scanLoop up dn i' r

/-- `skiploop`, `PBasic.cpp:6184-6216`. -/
def skiploop (up dn : Kw) : Int → List Line → List Tok → Res (List Line × List Tok)
  | i, ln, t =>
      match scanLoop up dn i t with
      | .inl r => .ok (ln, r)
      | .inr c =>
          match ln with
          | _ :: l :: ls => skiploop up dn c (l :: ls) l.txt
          | _ => .err
  termination_by _ ln _ => ln.length

/-- `cmdwhile`, `PBasic.cpp:6348-6395`. -/
def cmdwhile (A : Arith) (m : M) : Res (M × Flag) :=
  if iseos m.tok then .ok ({ m with loops := .whileF m.ln m.tok :: m.loops }, .plain)
  else (realexpr A m.tok m.env).bind fun p =>
    if p.1 ≠ 0 then
      .ok ({ m with tok := p.2.1, env := p.2.2, loops := .whileF m.ln m.tok :: m.loops }, .plain)
    else (skiploop .kwhile .kwend 0 m.ln p.2.1).bind fun q =>
      .ok ({ m with ln := q.1, tok := skiptoeos q.2, env := p.2.2 }, .plain)

/-- The search for the loop of a `WEND`, `PBasic.cpp:6408-6427`. -/
def popWhile : List Frame → Res (List Frame)
  | [] => .err
  | .gosubF _ _ :: _ => .err
  | .whileF h t :: fs => .ok (.whileF h t :: fs)
  | .forF _ _ _ _ _ :: fs => popWhile fs

/-- `cmdwend`, `PBasic.cpp:6397-6452`. -/
def cmdwend (A : Arith) (m : M) : Res (M × Flag) :=
  (popWhile m.loops).bind fun fs =>
    match fs with
    | .whileF h t :: fs' =>
        (if iseos m.tok then Res.ok (true, m.tok, m.env)
          else (realexpr A m.tok m.env).bind fun p => .ok (decide (p.1 = 0), p.2)).bind fun p =>
          if p.1 then
            if iseos t then .ok ({ m with ln := h, tok := t, env := p.2.2, loops := fs }, .plain)
            else (realexpr A t p.2.2).bind fun q =>
              if q.1 = 0 then
                .ok ({ m with tok := p.2.1, env := q.2.2, loops := fs' }, .plain)
              else .ok ({ m with ln := h, tok := q.2.1, env := q.2.2, loops := fs }, .plain)
          else .ok ({ m with tok := p.2.1, env := p.2.2, loops := fs' }, .plain)
    | _ => .err

/-- `cmdgosub`, `PBasic.cpp:6454-6471`. -/
def cmdgosub (A : Arith) (prog : List Line) (m : M) : Res (M × Flag) :=
  cmdgoto A prog { m with loops := .gosubF m.ln m.tok :: m.loops }

/-- The search for the call of a `RETURN`, `PBasic.cpp:6484-6508`. -/
def popGosub : List Frame → Res (List Line × List Tok × List Frame)
  | [] => .err
  | .gosubF h t :: fs => .ok (h, t, fs)
  | _ :: fs => popGosub fs

/-- `cmdreturn`, `PBasic.cpp:6473-6510`. -/
def cmdreturn (m : M) : Res (M × Flag) :=
  (popGosub m.loops).bind fun p =>
    .ok ({ m with ln := p.1, tok := skiptoeos p.2.1, loops := p.2.2 }, .plain)

/-- The search for the next `DATA` with something behind it, in one line,
`PBasic.cpp:6583-6586`. -/
def seekIn : List Tok → Option (List Tok)
  | [] => none
  | t :: r => if t = .kw .kdata ∧ iseos r = false then some r else seekIn r

/-- The search over the lines, `PBasic.cpp:6574-6586`. -/
def seek : List Line → List Tok → Res (List Line × List Tok)
  | ln, t =>
      match seekIn t with
      | some r => .ok (ln, r)
      | none =>
          match ln with
          | _ :: l :: ls => seek (l :: ls) l.txt
          | _ => .err
  termination_by ln _ => ln.length

/-- Where the next item of the data is, `PBasic.cpp:6567-6589`.  Without a
program there is no first line to look at (a null pointer). -/
def dataPlace (prog : List Line) (m : M) : Res (List Line × List Tok) :=
  if m.dline = [] then
    match prog with
    | [] => .ub
    | l :: ls =>
        match l.txt with
        | .comma :: r => .ok (l :: ls, r)
        | t => seek (l :: ls) t
  else
    match m.dtok with
    | .comma :: r => .ok (m.dline, r)
    | t => seek m.dline t

/-- One variable of a `READ`, `PBasic.cpp:6521-6600`.  An item that uses the
array it is read into (and so moves the element) is outside the model. -/
def readOne (A : Arith) (prog : List Line) (m : M) : Res M :=
  (lvalue A m.tok m.env).bind fun p =>
    (dataPlace prog m).bind fun d =>
      if (p.2.2 p.1.1).dims ≠ [] ∧ .var p.1.1 ∈ d.2 then .out
      else if p.1.1.isStr then
        (strexpr A d.2 p.2.2).bind fun q =>
          .ok { m with tok := p.2.1, env := q.2.2.setStr p.1.1 p.1.2 q.1, dline := d.1, dtok := q.2.1 }
      else
        (realexpr A d.2 p.2.2).bind fun q =>
          .ok { m with tok := p.2.1, env := q.2.2.setNum p.1.1 p.1.2 q.1, dline := d.1, dtok := q.2.1 }

/-- `cmdread`, `PBasic.cpp:6512-6606`; the first argument bounds the number of
variables. -/
def cmdread (A : Arith) (prog : List Line) : Nat → M → Res (M × Flag)
  | 0, _ => .out
  | f + 1, m =>
      (readOne A prog m).bind fun m' =>
        if iseos m'.tok then .ok (m', .plain)
        else (require .comma m'.tok).bind fun r =>
          if iseos r then .ok ({ m' with tok := r }, .plain)
          else cmdread A prog f { m' with tok := r }

/-- `cmdrestore`, `PBasic.cpp:6614-6634`. -/
def cmdrestore (A : Arith) (prog : List Line) (m : M) : Res (M × Flag) :=
  if iseos m.tok then .ok ({ m with dline := [], dtok := [] }, .plain)
  else (intexpr A m.tok m.env).bind fun p =>
    match findline p.1 prog with
    | none => .err
    | some ln => .ok ({ m with tok := p.2.1, env := p.2.2, dline := ln, dtok := firstTxt ln }, .plain)

/-- The list of line numbers of `ON`, `PBasic.cpp:6674-6680`. -/
def onList : Nat → List Tok → Res (List Tok)
  | 0, ts => .ok ts
  | i + 1, ts =>
      if iseos ts then .ok ts
      else match ts with
        | .num _ :: r => if iseos r then onList i r else (require .comma r).bind (onList i)
        | _ => .err

/-- `cmdon`, `PBasic.cpp:6643-6683`: the record of an `ON ... GOSUB` is pushed
before the number is looked at. -/
def cmdon (A : Arith) (prog : List Line) (m : M) : Res (M × Flag) :=
  (intexpr A m.tok m.env).bind fun p =>
    (match p.2.1 with
      | .kw .kgosub :: r => Res.ok (r, Frame.gosubF m.ln p.2.1 :: m.loops)
      | ts => (require (.kw .kgoto) ts).bind fun r => .ok (r, m.loops)).bind fun q =>
      if p.1 < 1 then .ok ({ m with tok := skiptoeos q.1, env := p.2.2, loops := q.2 }, .plain)
      else (onList (p.1 - 1).toNat q.1).bind fun r =>
        if iseos r then .ok ({ m with tok := r, env := p.2.2, loops := q.2 }, .plain)
        else cmdgoto A prog { m with tok := r, env := p.2.2, loops := q.2 }

/-- The dimensions of one array of a `DIM`, `PBasic.cpp:6708-6724` with the
product `j *= k`; 8 bytes are allocated for each cell, and a product that does
not fit is undefined. -/
def dimList (A : Arith) : Nat → List Nat → Nat → List Tok → Env → Res (List Nat × List Tok × Env)
  | 0, _, _, _, _ => .out
  | f + 1, ds, j, ts, σ =>
      (intexpr A ts σ).bind fun p =>
        if p.1 + 1 < 1 then .err
        else if 4 ≤ ds.length then .err
        else
          let k := (p.1 + 1).toNat
          if 2305843009213693952 ≤ j * k then .ub
          else match p.2.1 with
            | .rp :: r => .ok (ds ++ [k], r, p.2.2)
            | ts' => (require .comma ts').bind fun r => dimList A f (ds ++ [k]) (j * k) r p.2.2

/-- `cmddim`, `PBasic.cpp:6685-6759`. -/
def cmddim (A : Arith) : Nat → M → Res (M × Flag)
  | 0, _ => .out
  | f + 1, m =>
      match m.tok with
      | .var v :: r =>
          if (m.env v).dims ≠ [] then .err
          else (require .lp r).bind fun r1 =>
            (dimList A 5 [] 1 r1 m.env).bind fun p =>
              let m' := { m with tok := p.2.1, env := p.2.2.alloc v p.1 }
              if iseos m'.tok then .ok (m', .plain)
              else (require .comma m'.tok).bind fun r2 =>
                if iseos r2 then .ok ({ m' with tok := r2 }, .plain)
                else cmddim A f { m' with tok := r2 }
      | _ => .err

/-- `cmdpunch`, `PBasic.cpp:5899-5989`: the values, without their format. -/
def cmdpunch (A : Arith) : Nat → M → Res (M × Flag)
  | 0, _ => .out
  | f + 1, m =>
      if iseos m.tok then .ok (m, .plain)
      else match m.tok with
        | .semi :: r => cmdpunch A f { m with tok := r }
        | .comma :: r => cmdpunch A f { m with tok := r }
        | ts => (expr A ts m.env).bind fun p =>
            cmdpunch A f { m with tok := p.2.1, env := p.2.2, outp := m.outp ++ [p.1] }

/-- The `switch` of `exec`, `PBasic.cpp:6832-7028`, at the word `t`; `m.tok`
are the tokens behind it. -/
def command (A : Arith) (prog : List Line) (t : Tok) (m : M) : Res (M × Flag) :=
  match t with
  | .kw .krem => .ok (m, .plain)
  | .kw .klet => cmdlet A m
  | .var v => cmdlet A { m with tok := .var v :: m.tok }
  | .kw .kpunch => cmdpunch A (m.tok.length + 1) m
  | .kw .kgoto => cmdgoto A prog m
  | .kw .kif => cmdif A prog m
  | .kw .kelse => .ok ({ m with tok := [] }, .plain)
  | .kw .kend => .ok ({ m with ln := [], tok := [] }, .plain)
  | .kw .kfor => cmdfor A m
  | .kw .knext => cmdnext A m
  | .kw .kwhile => cmdwhile A m
  | .kw .kwend => cmdwend A m
  | .kw .kgosub => cmdgosub A prog m
  | .kw .kreturn => cmdreturn m
  | .kw .kread => cmdread A prog (m.tok.length + 1) m
  | .kw .kdata => .ok ({ m with tok := skiptoeos m.tok }, .plain)
  | .kw .krestore => cmdrestore A prog m
  | .kw .kon => cmdon A prog m
  | .kw .kdim => cmddim A (m.tok.length + 1) m
  | .other => .out
  | _ => .err

/-- Colons before a statement are skipped, `PBasic.cpp:6816-6817`. -/
def dropColons : List Tok → List Tok
  | .colon :: r => dropColons r
  | ts => ts

/-- One round of the inner loop of `exec`, `PBasic.cpp:6812-7043`. -/
def step (A : Arith) (prog : List Line) (m : M) : Res M :=
  match dropColons m.tok with
  | [] => finish ({ m with tok := [] }, .plain)
  | t :: r => (command A prog t { m with tok := r }).bind finish

/-- Up to `n` statements of the program; a program that has ended stays. -/
def run (A : Arith) (prog : List Line) : Nat → M → Res M
  | 0, m => .ok m
  | n + 1, m => if m.ln = [] then .ok m else (step A prog m).bind (run A prog n)

/-- The start of a run, `cmdrun`, `PBasic.cpp:5519-5560`: first line, all
variables cleared, no loops, data at the beginning. -/
def start (prog : List Line) : M :=
  ⟨prog, firstTxt prog, fun _ => Var.clear, [], [], [], []⟩

end Verif.Pbasic
