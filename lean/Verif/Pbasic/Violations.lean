import Verif.Pbasic.Demo

/-!
# Where BASIC programs do not do what one expects
-/

namespace Verif.Pbasic.Violations

open Verif.Pbasic Verif.Pbasic.Demo

variable (A : Arith)

/-- The values punched by a program. -/
def punched : Res M → Res (List Val)
  | .ok m => .ok m.outp
  | .err => .err
  | .ub => .ub
  | .out => .out

/-- `NOT` turns the bits of its operand over: the value of `NOT c` is -2 for a
condition that holds and -1 for one that does not, so `IF NOT c` is taken in
both cases (`PBasic.cpp:2153-2157`). -/
theorem not_of_condition (σ : Env) (c : Ex) (p : Prop) (ts rest : List Tok)
    (hc : value A σ c = .ok (.num (flag p))) (hd : Declared σ c) (hw : Writes 6 (.not c) ts)
    (h1 : ∀ r, rest ≠ .lp :: r) (h2 : ∀ o r, rest ≠ .op o :: r) :
    ∃ q, expr A (ts ++ rest) σ = .ok (.num q, rest, σ) ∧ q ≠ 0 := by
  have hd' : Declared σ (.not c) := by unfold Declared; exact hd
  rw [expr_value hw hd' h1 h2]
  unfold value
  rw [hc]
  simp only [Res.bind_ok, number]
  unfold flag
  split
  · rw [nearest_one]
    simp only [Res.bind_ok]
    exact ⟨_, rfl, by norm_num⟩
  · rw [nearest_zero]
    simp only [Res.bind_ok]
    exact ⟨_, rfl, by norm_num⟩

/-- `10 IF NOT (1 = 1) THEN PUNCH 5` punches. -/
example : punched (run A0 [⟨10, [.kw .kif, .not, .lp, .num 1, .op .eq, .num 1, .rp, .kw .kthen, .kw .kpunch, .num 5]⟩] 9
    (start [⟨10, [.kw .kif, .not, .lp, .num 1, .op .eq, .num 1, .rp, .kw .kthen, .kw .kpunch, .num 5]⟩]))
    = .ok [.num 5] := by decide +kernel

/-- `n * y MOD y` is `10^-14` and not 0, for all positive numbers: `IF x MOD 5 =
0` is never true but for `x = 0` (`PBasic.cpp:5092-5094`; in double precision for
all numbers up to about 100). -/
theorem mod_of_multiple (σ : Env) (n : Nat) (y : ℚ) (hn : n ≠ 0) (hy : 1 ≤ y) :
    expr A [.num (n * y), .op .mod, .num y] σ = .ok (.num (1 / 10 ^ 14), [], σ) := by
  have hw : Writes 6 (.bin .mod (.num (n * y)) (.num y)) [.num (n * y), .op .mod, .num y] :=
    .bin (p := 1) (ta := [.num (n * y)]) rfl (by decide) (by decide) (.num _) (.num _)
  have := expr_value (A := A) (σ := σ) (rest := []) hw (by simp [Declared]) (by simp) (by simp)
  rw [List.append_nil] at this
  rw [this]
  have hn' : (0 : ℚ) < n := by exact_mod_cast Nat.pos_of_ne_zero hn
  have hpos : 0 < (n : ℚ) * y := mul_pos hn' (by linarith)
  have y0 : y ≠ 0 := by linarith
  have hfl : ⌊((n : ℚ) * y + 1 / 10 ^ 14) / y⌋ = (n : Int) := by
    rw [Int.floor_eq_iff, le_div_iff₀ (by linarith), div_lt_iff₀ (by linarith)]
    constructor
    · push_cast; norm_num
    · push_cast
      have : (1 : ℚ) / 10 ^ 14 < 1 := by norm_num
      nlinarith
  simp only [value, Res.bind_ok, onValues, onNumbers, reduceCtorEq, false_and, if_false]
  rw [if_neg hpos.ne', if_neg y0, if_pos hpos]
  simp only [Res.bind_ok]
  unfold remainder
  rw [abs_of_pos hpos, abs_of_pos (by linarith : (0 : ℚ) < y), hfl]
  congr 3
  push_cast
  ring

/-- The power of zero is zero, also `0^0` and `0^(-1)` (`PBasic.cpp:5047-5054`). -/
theorem zero_to_a_power (σ : Env) (y : ℚ) :
    expr A [.num 0, .op .pow, .num y] σ = .ok (.num 0, [], σ) := by
  have hw : Writes 6 (.bin .pow (.num 0) (.num y)) [.num 0, .op .pow, .num y] :=
    .pow (ta := [.num 0]) (by decide) (.num _) (.num _)
  have := expr_value (A := A) (σ := σ) (rest := []) hw (by simp [Declared]) (by simp) (by simp)
  rw [List.append_nil] at this
  rw [this]
  simp [value, onValues, onNumbers, isText]

/-- A sign binds more strongly than `^`: `-x^y` is a power of the negative
number. -/
theorem sign_before_power (x : ℚ) (y : ℚ) :
    Writes 6 (.bin .pow (.neg (.num x)) (.num y)) [.op .sub, .num x, .op .pow, .num y] :=
  .pow (ta := [.op .sub, .num x]) (by decide) (.neg (.num x)) (.num y)

/-- `ON x GOSUB ...` with an `x` outside the list leaves a record of a call
behind, although nothing is called (`PBasic.cpp:6649-6683`): the `NEXT` of the
loop around it is then an error.
```
10 FOR i = 1 TO 2
20 ON 3 GOSUB 100
30 NEXT i
``` -/
def onProg (q : ℚ) : List Line :=
  [⟨10, [.kw .kfor, .var vi, .op .eq, .num 1, .kw .kto, .num 2]⟩,
   ⟨20, [.kw .kon, .num q, .kw .kgosub, .num 100]⟩,
   ⟨30, [.kw .knext, .var vi]⟩,
   ⟨40, [.kw .kend]⟩,
   ⟨100, [.kw .kpunch, .var vi]⟩,
   ⟨110, [.kw .kreturn]⟩]

theorem on_gosub_leaves_a_call : punched (run A0 (onProg 3) 20 (start (onProg 3))) = .err := by
  decide +kernel

/-- The same with a number in the list. -/
example : punched (run A0 (onProg 1) 20 (start (onProg 1))) = .ok [.num 1, .num 2] := by
  decide +kernel

/-- An undeclared array whose subscript has a comma inside parentheses cannot be
used, although it can be after `DIM` (`PBasic.cpp:1953-1976`).
```
10 DIM b(5,5)
20 a(b(1,2),3) = 4
30 PUNCH a(0,3)
``` -/
def commaProg (first : List Tok) : List Line :=
  [⟨10, .kw .kdim :: (first ++ [.var vb, .lp, .num 5, .comma, .num 5, .rp])⟩,
   ⟨20, [.var va, .lp, .var vb, .lp, .num 1, .comma, .num 2, .rp, .comma, .num 3, .rp, .op .eq, .num 4]⟩,
   ⟨30, [.kw .kpunch, .var va, .lp, .num 0, .comma, .num 3, .rp]⟩]

theorem nested_comma_at_first_use : punched (run A0 (commaProg []) 20 (start (commaProg []))) = .err := by
  decide +kernel

/-- The same with `DIM a(10,10), b(5,5)`. -/
example : punched (run A0 (commaProg [.var va, .lp, .num 10, .comma, .num 10, .rp, .comma]) 20
    (start (commaProg [.var va, .lp, .num 10, .comma, .num 10, .rp, .comma]))) = .ok [.num 4] := by
  decide +kernel

end Verif.Pbasic.Violations
