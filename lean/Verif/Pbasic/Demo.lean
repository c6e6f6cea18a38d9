import Verif.Pbasic.Props

/-!
# BASIC programs that meet the hypotheses of `Props`
-/

namespace Verif.Pbasic.Demo

open Verif.Pbasic

/-- Some arithmetic. -/
def A0 : Arith := ⟨fun x _ => x, fun _ x => some (x + 1)⟩

abbrev vi : V := ⟨"i", false⟩
abbrev vs : V := ⟨"s", false⟩
abbrev va : V := ⟨"a", false⟩
abbrev vb : V := ⟨"b", false⟩
abbrev vt : V := ⟨"t$", true⟩

/-- All variables cleared. -/
abbrev σ0 : Env := fun _ => ⟨[], fun _ => 0, fun _ => []⟩

theorem put_setNum (σ : Env) (v : V) (k : Nat) (q : ℚ) (h : v.isStr = false) :
    put σ v k (.num q) (σ.setNum v k q) :=
  ⟨fun w hw => by simp [Env.setNum, hw], by simp [Env.setNum], h, by simp [Env.setNum],
    fun i => by simp [Env.setNum]⟩

theorem put_setStr (σ : Env) (v : V) (k : Nat) (s : List Char) (h : v.isStr = true) :
    put σ v k (.str s) (σ.setStr v k s) :=
  ⟨fun w hw => by simp [Env.setStr, hw], by simp [Env.setStr], h, by simp [Env.setStr],
    fun i => by simp [Env.setStr]⟩

theorem nearest_nat (n : Nat) (h : n < 2 ^ 62) : nearest n = .ok n := by
  have : ⌊(n : ℚ) + 1 / 2⌋ = (n : Int) := by
    rw [Int.floor_eq_iff]
    constructor <;> push_cast <;> linarith
  unfold nearest
  rw [this, if_pos]
  constructor <;> omega

theorem nearest_zero : nearest 0 = .ok 0 := by have := nearest_nat 0 (by omega); simpa using this
theorem nearest_one : nearest 1 = .ok 1 := by have := nearest_nat 1 (by omega); simpa using this
theorem nearest_two : nearest 2 = .ok 2 := by have := nearest_nat 2 (by omega); simpa using this
theorem nearest_three : nearest 3 = .ok 3 := by have := nearest_nat 3 (by omega); simpa using this

/-! ## Lines -/

/-- Three lines in the wrong order, one entered twice, one taken out again. -/
example : [(20, [Tok.kw .kend]), (10, [.kw .krem]), (10, [.kw .kreturn]), (30, [.kw .kend]), (30, [])].foldl
    (fun p e => enter e.1 e.2 p) [] = [⟨10, [.kw .kreturn]⟩, ⟨20, [.kw .kend]⟩] := by decide

example : delRange 10 20 [⟨5, [.other]⟩, ⟨10, [.other]⟩, ⟨20, []⟩, ⟨30, []⟩] = [⟨5, [.other]⟩, ⟨30, []⟩] := by
  decide

/-! ## Expressions -/

/-- `7 - 2 - s * 3` -/
theorem demo_writes :
    Writes 6 (.bin .sub (.bin .sub (.num 7) (.num 2)) (.bin .mul (.var vs) (.num 3)))
      [.num 7, .op .sub, .num 2, .op .sub, .var vs, .op .mul, .num 3] :=
  .bin (p := 2) (ta := [.num 7, .op .sub, .num 2]) rfl (by decide) (by decide)
    (.bin (p := 2) (ta := [.num 7]) rfl (by decide) (by decide) (.num 7) (.num 2))
    (.bin (p := 1) (ta := [.var vs]) rfl (by decide) (by decide) (.var vs) (.num 3))

example : ∃ σ : Env, Declared σ (.bin .sub (.bin .sub (.num 7) (.num 2)) (.bin .mul (.var vs) (.num 3))) ∧
    value A0 σ (.bin .sub (.bin .sub (.num 7) (.num 2)) (.bin .mul (.var vs) (.num 3))) = .ok (.num (-1)) := by
  refine ⟨σ0.setNum vs 0 2, by simp [Declared, Env.setNum], ?_⟩
  simp [value, onValues, onNumbers, Env.read, Env.setNum]
  norm_num

/-- Two conditions. -/
example : value A0 σ0 (.bin .lt (.var vi) (.num 1)) = .ok (.num (flag True)) ∧
    value A0 σ0 (.bin .gt (.var vi) (.num 1)) = .ok (.num (flag False)) := by
  constructor <;> simp [value, onValues, onNumbers, Env.read, truth, Holds, flag]
  norm_num

/-! ## Arrays -/

/-- The variables after `DIM a(2,3)`. -/
abbrev σA : Env := σ0.alloc va [3, 4]

/-- The subscripts `(1,2)`. -/
abbrev a12 : Args := .more (.num 1) (.one (.num 2))

theorem a12_writes : WritesArgs a12 [.num 1, .comma, .num 2, .rp] :=
  .more (ts := [.num 1]) (.num 1) (.one (ts := [.num 2]) (.num 2))

theorem a12_subs (σ : Env) : Subs A0 σ a12 [1, 2] :=
  .more (q := 1) (by simp [value]) nearest_one (.one (q := 2) (by simp [value]) nearest_two)

example : Declared σA (.elem va a12) ∧ InRange [1, 2] (σA va).dims ∧
    isText (.num 7) = va.isStr := by
  refine ⟨by simp [Declared, DeclaredArgs, Env.alloc, Args.count], ?_, rfl⟩
  simp [InRange, Env.alloc]

/-- The subscripts `(1,4)` are outside. -/
example : ¬ InRange [1, 4] (σA va).dims := by simp [InRange, Env.alloc]

/-- What the interpreter does with `a(1,2) = 7` and `a(2,1)`, `a(1,2)`, `a(1,4)`. -/
example : (expr A0 [.var va, .lp, .num 1, .comma, .num 2, .rp] (σA.setNum va 6 7)).bind
    (fun p => .ok p.1) = .ok (.num 7) := by decide +kernel

example : (expr A0 [.var va, .lp, .num 1, .comma, .num 4, .rp] (σA.setNum va 6 7)).bind
    (fun p => .ok p.1) = .err := by decide +kernel

/-- An array that was never declared. -/
example : WritesFlat a12 [.num 1, .comma, .num 2, .rp] ∧ a12.count ≤ 4 ∧ (σ0 va).dims = [] ∧
    DimTen σ0 va a12.count (σ0.alloc va [11, 11]) := by
  refine ⟨.more (te := [.num 1]) (.num 1) (by simp) (.one (te := [.num 2]) (.num 2) (by simp)),
    by simp [Args.count], rfl, by simp [Env.alloc, Args.count], ?_⟩
  intro w hw
  simp [Env.alloc, hw]

/-! ## A program -/

/-- ```
10 FOR i = 1 TO 2
20 s = s + i
30 NEXT i
40 GOSUB 100
50 END
100 PUNCH s
110 RETURN
``` -/
def lines : List Line :=
  [⟨10, [.kw .kfor, .var vi, .op .eq, .num 1, .kw .kto, .num 2]⟩,
   ⟨20, [.var vs, .op .eq, .var vs, .op .add, .var vi]⟩,
   ⟨30, [.kw .knext, .var vi]⟩,
   ⟨40, [.kw .kgosub, .num (100 : Nat)]⟩]

def tail : List Line :=
  [⟨50, [.kw .kend]⟩, ⟨100, [.kw .kpunch, .var vs]⟩, ⟨110, [.kw .kreturn]⟩]

def body : Blk := .line (.last (.letv vs (.bin .add (.var vs) (.var vi)))) .nil

def block : Blk := .loop vi (.num 1) (.num 2) none body (.line (.last (.gosub 100)) .nil)

def subr : Blk := .line (.last (.punch [.var vs])) .nil

def sub (n : Nat) : Option Blk := if n = 100 then some subr else none

theorem block_writes : WritesB block lines :=
  .loop (lb := [⟨20, [.var vs, .op .eq, .var vs, .op .add, .var vi]⟩]) (ta := [.num 1]) (tb := [.num 2])
    (tst := []) (.num 1) (.num 2) .none
    (.line (.last (.letv (.bin (p := 2) (ta := [.var vs]) rfl (by decide) (by decide) (.var vs) (.var vi)))) .nil)
    (.line (.last (.gosub 100)) .nil)

theorem has_sub : HasSubs (lines ++ tail) sub := by
  intro n b hb
  unfold sub at hb
  by_cases hn : n = 100
  · subst hn
    rw [if_pos rfl] at hb
    injection hb with hb
    subst hb
    refine ⟨by decide, lines ++ [⟨50, [.kw .kend]⟩], [⟨100, [.kw .kpunch, .var vs]⟩], 110, [], by simp [tail],
      by simp [lines], ⟨_, _, rfl, rfl⟩, .line (.last (.punch (.final (.var vs)))) .nil⟩
  · rw [if_neg hn] at hb; cases hb

/-- The states of the variables: `i` and `s`. -/
abbrev env (i s : ℚ) : Env := fun w =>
  if w = vi then ⟨[], fun k => if k = 0 then i else 0, fun _ => []⟩
  else if w = vs then ⟨[], fun k => if k = 0 then s else 0, fun _ => []⟩ else σ0 w

theorem put_i (i s i' : ℚ) : put (env i s) vi 0 (.num i') (env i' s) := by
  refine ⟨fun w hw => by simp [env, hw], by simp [env], rfl, by simp [env], fun k => ?_⟩
  by_cases h : k = 0 <;> simp [env, h]

theorem put_s (i s s' : ℚ) : put (env i s) vs 0 (.num s') (env i s') := by
  have hne : vs ≠ vi := by decide
  refine ⟨fun w hw => by simp [env, hw], by simp [env, hne], rfl, by simp [env, hne], fun k => ?_⟩
  by_cases h : k = 0 <;> simp [env, h, hne]

theorem body_runs (i s : ℚ) (o : List Val) : Runs A0 sub (.b body) ⟨env i s, o⟩ ⟨env i (s + i), o⟩ := by
  have hne : vs ≠ vi := by decide
  refine .line (.last (.letv (x := .num (s + i)) ?_ ?_ ?_ (put_s i s (s + i)))) .nil
  · simp [env, hne]
  · simp [Declared, env]
  · simp [value, onValues, onNumbers, Env.read, env]

theorem program_runs : Runs A0 sub (.b block) ⟨σ0, []⟩ ⟨env 3 3, [.num 3]⟩ := by
  have e0 : σ0 = env 0 0 := by
    funext w
    by_cases h : w = vi <;> by_cases h' : w = vs <;> simp [env, h, h']
  rw [e0]
  refine .loop (s1 := ⟨env 3 3, []⟩) (x := 1) (limit := 2) (step := 1) (by simp [env]) (by simp [Declared])
    (by simp [value]) (put_i 0 0 1) (by simp [Declared]) (by simp [value]) rfl ?_
    (.line (.last (.gosub rfl (.line (.last (.punch
      (.cons (v := .num 3) (by simp [Declared, env]) (by simp [value, Env.read, env]) .nil))) .nil))) .nil)
  refine .iterMore (s1 := ⟨env 1 1, []⟩) (by constructor <;> simp [env]) ?_ (by simp [env])
    (σ2 := env 2 1) ?_ ?_
  · have := body_runs 1 0 []; rwa [zero_add] at this
  · have := put_i 1 1 2
    convert this using 2
    simp [env]; norm_num
  refine .iterMore (s1 := ⟨env 2 3, []⟩) (by constructor <;> simp [env]) ?_ (by simp [env])
    (σ2 := env 3 3) ?_ ?_
  · have := body_runs 2 1 []; convert this using 3; norm_num
  · have := put_i 2 3 3
    convert this using 2
    simp [env]; norm_num
  · refine .iterEnd ?_
    intro h
    have := h.1 (by norm_num)
    simp [env] at this
    norm_num at this

/-- The program ends with 3 punched. -/
example : ∃ N, ∀ n, N ≤ n → run A0 (lines ++ tail) n (start (lines ++ tail))
    = .ok ⟨[], [], env 3 3, [], [], [], [.num 3]⟩ :=
  structured_program A0 sub block lines tail _ block_writes (Or.inr ⟨50, _, rfl⟩) has_sub program_runs

/-- The loop runs twice. -/
example : times 1 2 1 = 2 ∧ times 3 1 1 = 0 ∧ times 10 1 (-3) = 4 ∧ times 1 2 (1 / 4) = 5 := by
  refine ⟨by decide +kernel, by decide +kernel, by decide +kernel, by decide +kernel⟩

/-- The states of that loop meet the hypotheses of `for_loop_times`. -/
example : ∃ t u : Nat → St, put σ0 vi 0 (.num 1) (t 0).env ∧ (t 0).outp = [] ∧
    (∀ i < times 1 2 1, Runs A0 sub (.b body) (t i) (u i)) ∧
    (∀ i < times 1 2 1, ((u i).env vi).numCell 0 = ((t i).env vi).numCell 0 ∧ ((u i).env vi).dims = []) ∧
    (∀ i < times 1 2 1, put (u i).env vi 0 (.num (1 + (i + 1 : Nat) * 1)) (t (i + 1)).env) ∧
    (∀ i < times 1 2 1, (t (i + 1)).outp = (u i).outp) := by
  have e0 : σ0 = env 0 0 := by
    funext w
    by_cases h : w = vi <;> by_cases h' : w = vs <;> simp [env, h, h']
  let s : Nat → ℚ := fun n => Nat.rec 0 (fun i x => x + (1 + i)) n
  refine ⟨fun i => ⟨env (1 + i) (s i), []⟩, fun i => ⟨env (1 + i) (s (i + 1)), []⟩, ?_, rfl, ?_, ?_, ?_, ?_⟩
  · rw [e0]
    have := put_i 0 0 1
    simpa [s] using this
  · intro i _
    exact body_runs (1 + i) (s i) []
  · intro i _
    exact ⟨by simp [env], by simp [env]⟩
  · intro i _
    have := put_i (1 + i) (s (i + 1)) (1 + (i + 1 : Nat) * 1)
    simpa using this
  · intro i _; rfl

/-! ## Data -/

/-- ```
10 READ t$, s
20 DATA "x", 1 + 2 : REM
30 DATA 5
``` -/
def dataLines : List Line :=
  [⟨10, [.kw .kread, .var vt, .comma, .var vs]⟩,
   ⟨20, [.kw .kdata, .str ['x'], .comma, .num 1, .op .add, .num 2, .colon, .kw .krem]⟩,
   ⟨30, [.kw .kdata, .num 5]⟩]

theorem data_items : ProgData [.str ['x'], .bin .add (.num 1) (.num 2), .num 5] dataLines := by
  refine .cons (es := []) (by simp) (.none (by simp)) (.cons (es := [.str ['x'], .bin .add (.num 1) (.num 2)])
    (by simp) ?_ (.cons (es := [.num 5]) (by simp) ?_ .nil))
  · exact .data (pre := []) (items := [.str ['x'], .comma, .num 1, .op .add, .num 2])
      (post := [.colon, .kw .krem]) (es := [.str ['x'], .bin .add (.num 1) (.num 2)]) (es' := []) (by simp)
      (.more (te := [.str ['x']]) (.str ['x']) (.one (.bin (p := 2) (ta := [.num 1]) rfl (by decide) (by decide)
        (.num 1) (.num 2)))) (Or.inr (Or.inl ⟨_, rfl⟩)) (.none (by simp))
  · exact .data (pre := []) (items := [.num 5]) (post := []) (es := [.num 5]) (es' := []) (by simp)
      (.one (.num 5)) (Or.inl rfl) (.none (by simp))

theorem data_read : ReadsTo A0 [vt, vs] [.str ['x'], .bin .add (.num 1) (.num 2)] σ0
    ((σ0.setStr vt 0 ['x']).setNum vs 0 3) := by
  refine .cons rfl (by simp [Declared]) (x := .str ['x']) (by simp [value]) (put_setStr _ _ _ _ rfl)
    (.cons (by simp [Env.setStr]) (by simp [Declared]) (x := .num 3) ?_ (put_setNum _ _ _ _ rfl) .nil)
  simp [value, onValues, onNumbers]
  norm_num

example : ∃ d', Reach A0 dataLines (start dataLines)
      (after ⟨10, [.kw .kread, .var vt, .comma, .var vs]⟩ dataLines.tail []
        ⟨(σ0.setStr vt 0 ['x']).setNum vs 0 3, []⟩ [] d') ∧ Pending dataLines [.num 5] d' :=
  read_in_order A0 dataLines [vt, vs] [.str ['x'], .bin .add (.num 1) (.num 2)] [.num 5]
    [.var vt, .comma, .var vs] [] _ dataLines.tail ⟨σ0, []⟩ _ [] ([], []) (.more (.one vs)) (Or.inl rfl)
    (data_at_start dataLines _ (by simp [dataLines]) data_items) data_read

/-! ## Jumps by number -/

/-- `ON 2 GOTO 20, 30` -/
example : WritesNums [20, 30] [.num (20 : Nat), .comma, .num (30 : Nat)] ∧
    value A0 σ0 (.num 2) = .ok (.num 2) ∧ nearest 2 = .ok 2 ∧ [20, 30][1]? = some 30 :=
  ⟨.more (.one 30), by simp [value], nearest_two, rfl⟩

/-- A third line is not there. -/
example : nearest 3 = .ok 3 ∧ (([20, 30] : List Nat).length : Int) < 3 := ⟨nearest_three, by decide⟩

end Verif.Pbasic.Demo
