import Verif.CellRun.Model

/-!
# What `RUN_CELLS` is for: one cell at a time, from what the cell contains

Stated on the content of a cell alone, without the slots -1 and -2, without the
records of what is in use and what is to be saved.
-/

namespace Verif.CellRun

/-- The content of one cell. -/
abbrev Cell (D : Type) := Kind → Option D

/-- The cell of number `i`. -/
def cellAt {D : Type} (m : Maps D) (i : Int) : Cell D := fun k => m k i

/-- The reactants of a cell other than its water. -/
def reactants {D : Type} (c : Cell D) : Kind → Option D
  | .solution | .mix => none
  | k => c k

/-- The water of a cell: its mix, when `fresh` and it has one, or else its solution. -/
inductive Water {D : Type} (E : Engine D) (sols : Int → Option D) (c : Cell D) (fresh : Bool) :
    Source D → Prop where
  | mix (d : D) : fresh = true → c .mix = some d →
      Water E sols c fresh (.mixed d ((E.named d).map sols))
  | solution (d : D) : (fresh = false ∨ c .mix = none) → c .solution = some d →
      Water E sols c fresh (.one d)

/-- The largest number of steps any of the stepwise reactants asks for, at least one. -/
def IsSteps {D : Type} (E : Engine D) (O : Opts) (c : Cell D) (n : Nat) : Prop :=
  if O.oneStep then n = 1
  else 1 ≤ n ∧
    (∀ k ∈ [Kind.reaction, .kinetics, .temperature, .pressure], ∀ d, c k = some d →
      E.count k d ≤ n) ∧
    (n = 1 ∨ ∃ k ∈ [Kind.reaction, .kinetics, .temperature, .pressure], ∃ d,
      c k = some d ∧ n = E.count k d)

/-- The time given to the kinetic reactants of a cell in step `s` of `n`. -/
def spell {D : Type} (E : Engine D) (O : Opts) (c : Cell D) (n s : Nat) : ℚ :=
  match c .kinetics with
  | none => 0
  | some d =>
    match O.step, O.incr with
    | some t, true => t / n
    | some t, false => s * t / n
    | none, b => E.current d b s

/-- The content of a cell between two steps that follow one another: what the first
step made of it. -/
def absorb {D : Type} (c : Cell D) (o : Output D) : Cell D := fun k =>
  match k with
  | .solution => some o.sol
  | .mix => c .mix
  | .pp | .exchange | .surface | .gas | .ss => (c k).map fun _ => o.x k
  | .kinetics | .reaction | .temperature | .pressure => (c k).map fun d => (o.slot2 k).getD d

/-- The content of a cell after its last step: what is prescribed (reaction,
temperature, pressure, mix) stays as it was given. -/
def settle {D : Type} (c0 c : Cell D) (o : Output D) : Cell D := fun k =>
  match k with
  | .reaction | .temperature | .pressure | .mix => c0 k
  | k => absorb c o k

/-- One step of the chemistry on a cell of content `c`. -/
def Reacts {D : Type} (E : Engine D) (sols : Int → Option D) (t0 : ℚ) (i : Int) (n s : Nat)
    (fresh : Bool) (kt before : ℚ) (c : Cell D) (r : Option (Output D)) : Prop :=
  ∃ w, Water E sols c fresh w ∧
    E.react { source := w, part := reactants c, cell := i, step := s, steps := n,
              kinTime := kt, start := t0, simStart := before } = r

/-- The first `j` of the `n` steps of cell `i` succeed.  Steps that each start from the
given cell (`incr = false`) are independent of one another; steps that follow one
another (`incr = true`) start from what the one before left, and the mix is made in the
first one only.  `c` is the content the next step starts from, `last` the content the
last step started from with its results, `spent` the time so far. -/
inductive Through {D : Type} (E : Engine D) (O : Opts) (sols : Int → Option D) (t0 : ℚ) (i : Int)
    (n : Nat) (c0 : Cell D) : Nat → Cell D → ℚ → List (Row D) → Option (Cell D × ℚ × Output D) →
      Prop where
  | none : Through E O sols t0 i n c0 0 c0 0 [] none
  | each (j : Nat) (spent : ℚ) (rows : List (Row D)) (l : Option (Cell D × ℚ × Output D))
      (o : Output D) :
      O.incr = false → Through E O sols t0 i n c0 j c0 spent rows l →
      Reacts E sols t0 i n (j + 1) true (spell E O c0 n (j + 1)) 0 c0 (some o) →
      Through E O sols t0 i n c0 (j + 1) c0 0 (rows ++ [⟨i, j + 1, o⟩])
        (some (c0, spell E O c0 n (j + 1), o))
  | follow (j : Nat) (c : Cell D) (spent : ℚ) (rows : List (Row D))
      (l : Option (Cell D × ℚ × Output D)) (o : Output D) :
      O.incr = true → Through E O sols t0 i n c0 j c spent rows l →
      Reacts E sols t0 i n (j + 1) (j == 0) (spell E O c n (j + 1)) spent c (some o) →
      Through E O sols t0 i n c0 (j + 1) (absorb c o) (spent + spell E O c n (j + 1))
        (rows ++ [⟨i, j + 1, o⟩])
        (some (c, spent + spell E O c n (j + 1), o))

/-- Cell `i` of content `c0` is treated: `c'` is its new content, `rows` the rows of
selected output, `spent` the time it took. -/
def Treated {D : Type} (E : Engine D) (O : Opts) (sols : Int → Option D) (t0 : ℚ) (i : Int)
    (c0 c' : Cell D) (rows : List (Row D)) (spent : ℚ) : Prop :=
  ∃ n c next before o, IsSteps E O c0 n ∧
    Through E O sols t0 i n c0 n next before rows (some (c, spent, o)) ∧
    c' = settle c0 c o

/-- The treatment of cell `i` fails in some step; `rows` are the rows of the steps
before. -/
def Fails {D : Type} (E : Engine D) (O : Opts) (sols : Int → Option D) (t0 : ℚ) (i : Int)
    (c0 : Cell D) (rows : List (Row D)) : Prop :=
  ∃ n j c spent l, j < n ∧ IsSteps E O c0 n ∧ Through E O sols t0 i n c0 j c spent rows l ∧
    Reacts E sols t0 i n (j + 1) (!O.incr || j == 0) (spell E O c n (j + 1)) spent c none

/-- A cell that is passed over. -/
def Skipped {D : Type} (m : Maps D) (i : Int) : Prop :=
  i < 0 ∨ (m .solution i = none ∧ m .mix i = none)

/-- The maps with cell `i` replaced. -/
def withCell {D : Type} (m : Maps D) (i : Int) (c : Cell D) : Maps D :=
  fun k n => if n = i then c k else m k n

/-- The same entities at all numbers other than the working numbers -1 and -2. -/
def Same {D : Type} (m m' : Maps D) : Prop :=
  ∀ k n, n ≠ -1 → n ≠ -2 → m k n = m' k n

/-- A list of cells is treated one after the other. -/
inductive Treats {D : Type} (E : Engine D) (O : Opts) (t0 : ℚ) :
    List Int → Maps D → Maps D → List (Row D) → Prop where
  | nil (m : Maps D) : Treats E O t0 [] m m []
  | skip (i : Int) (is : List Int) (m m' : Maps D) (rows : List (Row D)) :
      Skipped m i → Treats E O t0 is m m' rows → Treats E O t0 (i :: is) m m' rows
  | cell (i : Int) (is : List Int) (m m' : Maps D) (c' : Cell D) (rows rows' : List (Row D))
      (spent : ℚ) :
      ¬ Skipped m i → Treated E O (m .solution) t0 i (cellAt m i) c' rows spent →
      Treats E O t0 is (withCell m i c') m' rows' →
      Treats E O t0 (i :: is) m m' (rows ++ rows')

/-- No mix of a cell in the list names one of the working numbers. -/
def Clean {D : Type} (E : Engine D) (m : Maps D) (i : Int) : Prop :=
  ∀ d, m .mix i = some d → ∀ n ∈ E.named d, n ≠ -1 ∧ n ≠ -2

end Verif.CellRun
