import Verif.Pbasic.Model

/-!
# What a BASIC program means

Written without the parser and without the loop stack: expressions and
structured programs as trees, the ways to write them down as tokens, and their
meaning by recursion over the tree.
-/

namespace Verif.Pbasic

mutual
/-- An expression as a tree. -/
inductive Ex where
  | num (q : ℚ)
  | str (s : List Char)
  | var (v : V)
  | elem (v : V) (a : Args)
  | neg (e : Ex)
  | pos (e : Ex)
  | not (e : Ex)
  | fn (k : Nat) (e : Ex)
  | bin (o : Op) (a b : Ex)

/-- The subscripts of an array element, at least one. -/
inductive Args where
  | one (e : Ex)
  | more (e : Ex) (a : Args)
end

/-- The binding strength of the operators, from 1 (`^`) to 6 (`OR`, `XOR`);
signs, `NOT` and functions bind more strongly than all of them. -/
def prec : Op → Nat
  | .pow => 1
  | .mul | .div | .mod => 2
  | .add | .sub => 3
  | .eq | .lt | .gt | .le | .ge | .ne => 4
  | .and => 5
  | .or | .xor => 6

mutual
/-- `Writes l e ts`: the tokens `ts` write the expression `e` at a place where
operators of strength up to `l` may stand without parentheses.  Parentheses may
be added around any part.  `^` associates to the right, all other operators to
the left. -/
inductive Writes : Nat → Ex → List Tok → Prop where
  | num {l : Nat} (q : ℚ) : Writes l (.num q) [.num q]
  | str {l : Nat} (s : List Char) : Writes l (.str s) [.str s]
  | var {l : Nat} (v : V) : Writes l (.var v) [.var v]
  | elem {l : Nat} {v : V} {a : Args} {ts : List Tok} (h : WritesArgs a ts) :
      Writes l (.elem v a) (.var v :: .lp :: ts)
  | paren {l : Nat} {e : Ex} {ts : List Tok} (h : Writes 6 e ts) :
      Writes l e (.lp :: (ts ++ [.rp]))
  | neg {l : Nat} {e : Ex} {ts : List Tok} (h : Writes 0 e ts) : Writes l (.neg e) (.op .sub :: ts)
  | pos {l : Nat} {e : Ex} {ts : List Tok} (h : Writes 0 e ts) : Writes l (.pos e) (.op .add :: ts)
  | not {l : Nat} {e : Ex} {ts : List Tok} (h : Writes 0 e ts) : Writes l (.not e) (.not :: ts)
  | fn {l k : Nat} {e : Ex} {ts : List Tok} (h : Writes 0 e ts) : Writes l (.fn k e) (.fn k :: ts)
  | pow {l : Nat} {a b : Ex} {ta tb : List Tok} (hl : 1 ≤ l) (ha : Writes 0 a ta)
      (hb : Writes 1 b tb) : Writes l (.bin .pow a b) (ta ++ .op .pow :: tb)
  | bin {l p : Nat} {o : Op} {a b : Ex} {ta tb : List Tok} (ho : prec o = p + 1) (hp : 1 ≤ p)
      (hl : p + 1 ≤ l) (ha : Writes (p + 1) a ta) (hb : Writes p b tb) :
      Writes l (.bin o a b) (ta ++ .op o :: tb)

/-- The subscripts with the closing parenthesis. -/
inductive WritesArgs : Args → List Tok → Prop where
  | one {e : Ex} {ts : List Tok} (h : Writes 6 e ts) : WritesArgs (.one e) (ts ++ [.rp])
  | more {e : Ex} {a : Args} {ts ta : List Tok} (h : Writes 6 e ts) (ha : WritesArgs a ta) :
      WritesArgs (.more e a) (ts ++ .comma :: ta)
end

/-- How many subscripts. -/
def Args.count : Args → Nat
  | .one _ => 1
  | .more _ a => a.count + 1

mutual
/-- The variables of the expression are used as they were declared: simple
variables without, arrays with as many subscripts as they have dimensions. -/
def Declared (σ : Env) : Ex → Prop
  | .num _ => True
  | .str _ => True
  | .var v => (σ v).dims = []
  | .elem v a => (σ v).dims.length = a.count ∧ DeclaredArgs σ a
  | .neg e => Declared σ e
  | .pos e => Declared σ e
  | .not e => Declared σ e
  | .fn _ e => Declared σ e
  | .bin _ a b => Declared σ a ∧ Declared σ b

/-- The same for subscripts. -/
def DeclaredArgs (σ : Env) : Args → Prop
  | .one e => Declared σ e
  | .more e a => Declared σ e ∧ DeclaredArgs σ a
end

/-- Values of the type `long`. -/
def IsLong (z : Int) : Prop := -(2 : Int) ^ 63 ≤ z ∧ z < (2 : Int) ^ 63

open Classical in
/-- The whole part of a number, if it is a `long`. -/
noncomputable def whole (x : ℚ) : Res Int :=
  let z : Int := if x < 0 then -(⌊-x⌋) else ⌊x⌋
  if IsLong z then .ok z else .ub

open Classical in
/-- The nearest whole number, halves upwards, if it is a `long`. -/
noncomputable def nearest (x : ℚ) : Res Int :=
  if IsLong ⌊x + 1 / 2⌋ then .ok ⌊x + 1 / 2⌋ else .ub

/-- The dictionary order of texts. -/
def Before (s t : List Char) : Prop := List.Lex (fun a b => a.toNat < b.toNat) s t

/-- The comparison that an operator asks for, on any ordered set. -/
def Holds {α : Type} (lt : α → α → Prop) : Op → α → α → Prop
  | .eq, x, y => x = y
  | .ne, x, y => x ≠ y
  | .lt, x, y => lt x y
  | .gt, x, y => lt y x
  | .le, x, y => lt x y ∨ x = y
  | .ge, x, y => lt y x ∨ x = y
  | _, _, _ => False

open Classical in
/-- 1 for true, 0 for false. -/
noncomputable def truth (p : Prop) : Res Val := .ok (.num (if p then 1 else 0))

/-- The remainder of a positive number: what is left after taking away `y` as
often as possible (`y` may be negative, its sign does not matter). -/
noncomputable def remainder (x y : ℚ) : ℚ := x - |y| * ⌊x / |y|⌋

/-- An operator on numbers.  The power of a positive base is given by `A`, that
of a negative base exists for whole exponents only, that of zero is zero.
A quotient by zero is zero.  `AND`, `OR` and `XOR` act on the bits of the whole
parts.  `MOD` takes the remainder of the absolute value, to which `10^-14` is
added, and gives it the sign of the first operand; its value for a second
operand of zero is a NaN. -/
noncomputable def onNumbers (A : Arith) (o : Op) (x y : ℚ) : Res Val :=
  match o with
  | .add => .ok (.num (x + y))
  | .sub => .ok (.num (x - y))
  | .mul => .ok (.num (x * y))
  | .div => .ok (.num (if y = 0 then 0 else x / y))
  | .pow =>
      if 0 < x then .ok (.num (A.pw x y))
      else if x = 0 then .ok (.num 0)
      else (whole y).bind fun z =>
        if (z : ℚ) = y then .ok (.num ((if Even z then 1 else -1) * A.pw (-x) y)) else .err
  | .mod =>
      if x = 0 then .ok (.num 0)
      else if y = 0 then .out
      else .ok (.num ((if 0 < x then 1 else -1) * remainder (|x| + 1 / 10 ^ 14) y))
  | .and => (whole x).bind fun a => (whole y).bind fun b =>
      .ok (.num ((Int.bitwise (fun p q => p && q) a b : Int) : ℚ))
  | .or => (whole x).bind fun a => (whole y).bind fun b =>
      .ok (.num ((Int.bitwise (fun p q => p || q) a b : Int) : ℚ))
  | .xor => (whole x).bind fun a => (whole y).bind fun b =>
      .ok (.num ((Int.bitwise (fun p q => p ^^ q) a b : Int) : ℚ))
  | _ => truth (Holds (fun a b : ℚ => a < b) o x y)

/-- An operator on texts: `+` joins them, comparisons use the order of a
dictionary, anything else is an error. -/
noncomputable def onTexts (o : Op) (s t : List Char) : Res Val :=
  match o with
  | .add => .ok (.str (s ++ t))
  | .eq | .ne | .lt | .gt | .le | .ge => truth (Holds Before o s t)
  | _ => .err

/-- An operator on values of any kind; kinds are never mixed. -/
noncomputable def onValues (A : Arith) (o : Op) : Val → Val → Res Val
  | .num x, .num y => onNumbers A o x y
  | .str s, .str t => onTexts o s t
  | _, _ => .err

/-- A value that has to be a number. -/
def number : Val → Res ℚ
  | .num q => .ok q
  | .str _ => .err

/-- Is the value a text? -/
def isText : Val → Bool
  | .num _ => false
  | .str _ => true

/-- Row after row: the place `j` of `d` in row `k`; the subscript has to lie
between 0 and the dimension less one. -/
def place (k d : Nat) (j : Int) : Res Nat :=
  if 0 ≤ j ∧ j < (d : Int) then .ok (k * d + j.toNat) else .err

mutual
/-- The value of an expression. -/
noncomputable def value (A : Arith) (σ : Env) : Ex → Res Val
  | .num q => .ok (.num q)
  | .str s => .ok (.str s)
  | .var v => .ok (σ.read v 0)
  | .elem v a => (cellOf A σ (σ v).dims 0 a).bind fun k => .ok (σ.read v k)
  | .neg e => (value A σ e).bind fun v => (number v).bind fun x => .ok (.num (-x))
  | .pos e => (value A σ e).bind fun v => (number v).bind fun x => .ok (.num x)
  | .not e => (value A σ e).bind fun v => (number v).bind fun x =>
      (nearest x).bind fun z => .ok (.num (-(z : ℚ) - 1))
  | .fn k e => (value A σ e).bind fun v => (number v).bind fun x =>
      match A.fn k x with
      | some y => .ok (.num y)
      | none => .out
  | .bin o a b => (value A σ a).bind fun x =>
      if o = .pow ∧ isText x = true then .err
      else (value A σ b).bind fun y => onValues A o x y

/-- The place of an element: the subscripts are evaluated and rounded from left
to right, and each is compared with its dimension at once. -/
noncomputable def cellOf (A : Arith) (σ : Env) : List Nat → Nat → Args → Res Nat
  | d :: _, k, .one e => (value A σ e).bind fun v => (number v).bind fun x =>
      (nearest x).bind fun j => place k d j
  | d :: ds, k, .more e a => (value A σ e).bind fun v => (number v).bind fun x =>
      (nearest x).bind fun j => (place k d j).bind fun k' => cellOf A σ ds k' a
  | [], k, _ => .ok k
end

end Verif.Pbasic
