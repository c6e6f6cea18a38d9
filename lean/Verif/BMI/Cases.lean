import Verif.BMI.Time

/-!
# BMI: concrete cases and violated properties

A small module to try the theorems on and to show where the properties fail: every cell has the same
value `a`, which all setters of grid variables store and all getters of grid variables return.
-/

namespace Verif.BMI

/-- State of the small module. -/
structure Toy where
  nc  : Nat
  sel : Nat
  a   : ℚ
  t   : ℚ
  dt  : ℚ
  on  : Bool
  err : List Char
  pre : List Char
  deriving DecidableEq, Repr

/-- A module with `n` cells. -/
def toy (n : Nat) : Mod Toy where
  nxyz := n
  ncomp := (·.nc)
  nsel := (·.sel)
  vec st v := match v with
    | .Concentrations => List.replicate (n * st.nc) st.a
    | .Gfw => List.replicate st.nc 18
    | .SelectedOutput => List.replicate (n * st.sel) st.a
    | _ => List.replicate n st.a
  num st v := match v with
    | .Time => st.t
    | .TimeStep => st.dt
    | _ => 0
  int st v := match v with
    | .ComponentCount => st.nc
    | .GridCellCount => n
    | .SelectedOutputCount => st.sel
    | _ => 0
  on := (·.on)
  str st v := match v with
    | .ErrorString => st.err
    | _ => st.pre
  strs st v := match v with
    | .Components => List.replicate st.nc ['H']
    | _ => List.replicate st.sel ['p', 'H']
  setVec st _ l := { st with a := l.headD 0 }
  setNum st v x := match v with
    | .Time => { st with t := x }
    | .TimeStep => { st with dt := x }
    | _ => st
  setInt st _ _ := st
  setOn st b := { st with on := b }
  setStr st _ x := { st with pre := x }

theorem toy_lawful (n : Nat) : Lawful (toy n) where
  len st v hv := by
    cases v <;> simp [Var.isVec, Var.ctype, Var.scalar] at hv <;> simp [toy, Mod.size]
  setVec _ _ _ := ⟨rfl, rfl, rfl, rfl⟩
  setNum st v x := by cases v <;> exact ⟨rfl, rfl, rfl, rfl⟩
  setInt _ _ _ := ⟨rfl, rfl, rfl, rfl⟩
  setOn _ _ := ⟨rfl, rfl, rfl, rfl⟩
  setStr _ _ _ := ⟨rfl, rfl, rfl, rfl⟩

theorem toy_timed (n : Nat) : Timed (toy n) where
  vec _ _ _ w := by cases w <;> rfl
  int _ _ _ w := by cases w <;> rfl
  on _ _ w := by cases w <;> rfl
  str _ _ _ w := by cases w <;> rfl
  same st v x hv := by cases v <;> simp [Var.scalar] at hv <;> rfl
  else' st v x w hw := by
    cases v <;> cases w <;> first | rfl | exact absurd rfl hw

/-- As constructed, three components to be found. -/
def s0 : S Toy := start ⟨0, 0, 7, 0, 10, true, [], ['m', 'y']⟩

/-- `FindComponents` finding `k` components. -/
def find (k : Nat) : Op Toy := .findComponents (fun st => { st with nc := k }) []

/-- Value of a call. -/
def R.val {σ α : Type} : R σ α → Option α
  | .ok _ a => some a
  | _ => none

/-- State left by a call. -/
def R.state {σ α : Type} : R σ α → Option (S σ)
  | .ok s _ => some s
  | .threw s => some s
  | .ub => none

/-- Undefined. -/
def R.isUb {σ α : Type} : R σ α → Bool
  | .ub => true
  | _ => false

/-- Thrown. -/
def R.isThrow {σ α : Type} : R σ α → Bool
  | .threw _ => true
  | _ => false

theorem R.isUb_iff {σ α : Type} {r : R σ α} (h : r.isUb = true) : r = .ub := by
  cases r <;> first | rfl | cases h

/-- Calls in sequence, going on after exceptions. -/
def runs {σ : Type} (m : Mod σ) : List (Op σ) → S σ → R σ Unit
  | [], s => .ok s ()
  | op :: ops, s => match exec m op s with
    | .ok s _ => runs m ops s
    | .threw s => runs m ops s
    | .ub => .ub

/-- Calls that keep `FindComponents` from growing under pointers. -/
def Allowed {σ : Type} (m : Mod σ) : List (Op σ) → S σ → Prop
  | [], _ => True
  | op :: ops, s => op.Mild m ∧ op.NoGrowth m s ∧ ∀ s', Leads m s op s' → Allowed m ops s'

theorem runs_reach {σ : Type} {m : Mod σ} : ∀ (ops : List (Op σ)) {s s' : S σ}, Reach m s →
    Allowed m ops s → runs m ops s = .ok s' () → Reach m s'
  | [], s, s', h, _, e => by
    simp only [runs, R.ok.injEq, and_true] at e; exact e ▸ h
  | op :: ops, s, s', h, ha, e => by
    simp only [runs] at e
    cases hx : exec m op s with
    | ok s1 a =>
      rw [hx] at e
      exact runs_reach ops (.step op h ha.1 ha.2.1 (.inl hx)) (ha.2.2 s1 (.inl hx)) e
    | threw s1 =>
      rw [hx] at e
      exact runs_reach ops (.step op h ha.1 ha.2.1 (.inr hx)) (ha.2.2 s1 (.inr hx)) e
    | ub => rw [hx] at e; cases e

/-- A run that changes the values. -/
def step : Run Toy := ⟨fun st => { st with a := st.a + 1 }, false, false⟩

theorem step_keeps (n : Nat) : ∀ st, Keeps (toy n) st (step.f st) := fun _ => ⟨rfl, rfl, rfl, rfl⟩

/-! ### Counts and names -/

-- C39: the counts at the start: 11 input, 22 output, 14 pointable variables
example : (getInputItemCount (toy 2) s0).val = some 11 := by decide +kernel
example : ((getOutputItemCount (toy 2) s0).val, (getPointableItemCount (toy 2) s0).val)
    = (some 22, some 14) := by decide +kernel
example : Reach (toy 2) s0 := .start _

-- C40: names are found in any case
example : getEnum "POROSITY".toList = some .Porosity ∧ getEnum "Porosity ".toList = none := by
  decide +kernel

/-- C40 is violated: `SetValue(name, void*)` divides by zero for a listed input variable whose value
is the empty string. -/
theorem set_listed_violated : ∃ (s : S Toy) (x : List Char), Reach (toy 2) s ∧
    (Var.FilePrefix).flags.1 = true ∧ setValueRaw (toy 2) .FilePrefix (.chars x) s = .ub :=
  ⟨start ⟨0, 0, 7, 0, 10, true, [], []⟩, ['a'], .start _, rfl, R.isUb_iff (by decide +kernel)⟩

/-- C40 is violated: `GetValuePtr` of a variable that is not listed as pointable returns a null
pointer instead of throwing. -/
theorem components_pointer_is_null : ∃ s : S Toy, Reach (toy 2) s ∧
    (Var.Components).flags.2.2 = false ∧
    ∃ s', getValuePtr (toy 2) .Components s = .ok s' none := by
  refine ⟨s0, .start _, rfl, ?_⟩
  cases h : getValuePtr (toy 2) .Components s0 with
  | ok s' p =>
    have : (getValuePtr (toy 2) .Components s0).val = some none := by decide +kernel
    rw [h] at this
    simp only [R.val, Option.some.injEq] at this
    exact ⟨s', by rw [this]⟩
  | threw s' =>
    have : (getValuePtr (toy 2) .Components s0).isThrow = false := by decide +kernel
    rw [h] at this; cases this
  | ub =>
    have : (getValuePtr (toy 2) .Components s0).isUb = false := by decide +kernel
    rw [h] at this; cases this

/-- C40 is violated: a variable that can be read is missing from the list of output variables as
long as no selected output is defined. -/
theorem headings_unlisted : ∃ s : S Toy, Reach (toy 2) s ∧
    (∃ s' l, getOutputVarNames (toy 2) s = .ok s' l ∧ (Var.SelectedOutputHeadings).name.toList ∉ l) ∧
    ∃ s' l, getValueStrs (toy 2) .SelectedOutputHeadings s = .ok s' l := by
  refine ⟨s0, .start _, ?_, ?_⟩
  · cases h : getOutputVarNames (toy 2) s0 with
    | ok s' l =>
      have : (getOutputVarNames (toy 2) s0).val.map
        (fun l => decide ((Var.SelectedOutputHeadings).name.toList ∉ l)) = some true := by
        decide +kernel
      rw [h] at this
      exact ⟨s', l, rfl, by simpa [R.val] using this⟩
    | threw s' =>
      have : (getOutputVarNames (toy 2) s0).isThrow = false := by decide +kernel
      rw [h] at this; cases this
    | ub =>
      have : (getOutputVarNames (toy 2) s0).isUb = false := by decide +kernel
      rw [h] at this; cases this
  · obtain ⟨s', e⟩ := (get_listed (toy_lawful 2) (.start _) (v := .SelectedOutputHeadings)
      (s := s0) rfl).2.2.2.2.2 rfl
    exact ⟨s', _, e⟩

-- C40: a set, a refusal, a read
example : ((setValueVec (toy 2) .Concentrations [3, 3, 3, 3]
    ((exec (toy 2) (find 2) s0).state.getD s0)).state.map (·.st.a)) = some 3 := by decide +kernel
example : (setValueVec (toy 2) .Viscosity [3, 3] s0).isThrow = true := by decide +kernel
example : (getValueVec (toy 2) .Viscosity s0).val = some [7, 7] := by decide +kernel
example : (getValueVec (toy 1) .Viscosity s0).val = some [7] := by decide +kernel
example : (getValueVec (toy 2) .SaturationUser s0).isThrow = true := by decide +kernel
example : (getValuePtr (toy 2) .SelectedOutput s0).isThrow = true := by decide +kernel

/-! ### Time -/

-- C41: two updates, then `UpdateUntil` forwards and backwards
example : ((runs (toy 2) [find 2, .update step, .update step, .updateUntil step 25,
    .updateUntil step 3] s0).state.map (clock (toy 2))) = some ⟨25, 5⟩ := by decide +kernel

example : Op.Mild (toy 2) (.update step) ∧ (Op.update step).Punctual (toy 2) :=
  ⟨step_keeps 2, fun _ w => by cases w <;> rfl⟩

/-! ### One cell -/

/-- C42 is violated: with one cell `GetValue(name, void*)` gives a number that is not the module's
value. -/
theorem one_cell_read_violated : ∃ s : S Toy, Reach (toy 1) s ∧
    ((getValueRaw (toy 1) .Porosity s).val = some (.vec [0]) ∧
      (toy 1).vec s.st .Porosity = [7]) :=
  ⟨s0, .start _, by decide +kernel, by decide +kernel⟩

/-- C42 is violated: with one cell `SetValue(name, void*)` passes the setter the content of an
earlier transfer instead of the value at the address. -/
theorem one_cell_write_violated : ∃ s : S Toy, Reach (toy 1) s ∧ Ready s ∧
    ((setValueRaw (toy 1) .Porosity (.vec [3]) s).state.map (·.st.a)) ≠ some 3 ∧
    ((setValueVec (toy 1) .Porosity [3] s).state.map (·.st.a)) = some 3 := by
  refine ⟨(exec (toy 1) (find 1) s0).state.getD s0, ?_, ?_, by decide +kernel, by decide +kernel⟩
  · cases h : exec (toy 1) (find 1) s0 with
    | ok s a => exact .step (find 1) (.start _) trivial (.inr ⟨rfl, rfl⟩) (.inl h)
    | threw s => exact .step (find 1) (.start _) trivial (.inr ⟨rfl, rfl⟩) (.inr h)
    | ub => exact .start _
  · exact ⟨by decide +kernel, by decide +kernel⟩

-- C42: with two cells both directions are right
example : (getValueRaw (toy 2) .Porosity s0).val = some (.vec [7, 7]) := by decide +kernel
example : ((setValueRaw (toy 2) .Porosity (.vec [3, 3])
    ((exec (toy 2) (find 1) s0).state.getD s0)).state.map (·.st.a)) = some 3 := by decide +kernel

/-! ### Pointers -/

/-- The pointer for `v` in `s` and what it shows after more calls. -/
def shows {σ : Type} (m : Mod σ) (v : Var) (ops : List (Op σ)) (s : S σ) :
    Option (Option Value × Value) :=
  match getValuePtr m v s with
  | .ok s1 (some q) => match runs m ops s1 with
    | .ok s2 _ => some (deref s2 v q, current m s2.st v)
    | _ => none
  | _ => none

theorem shows_spec {σ : Type} {m : Mod σ} {v : Var} {ops : List (Op σ)} {s : S σ}
    {d : Option Value} {c : Value} (h : shows m v ops s = some (d, c)) :
    ∃ s1 q s2, getValuePtr m v s = .ok s1 (some q) ∧ runs m ops s1 = .ok s2 () ∧
      deref s2 v q = d ∧ current m s2.st v = c := by
  unfold shows at h
  split at h
  · next s1 q e1 =>
    split at h
    · next s2 a e2 =>
      simp only [Option.some.injEq, Prod.mk.injEq] at h
      exact ⟨s1, q, s2, e1, e2, h.1, h.2⟩
    · cases h
  · cases h

theorem find_reach (n k : Nat) : Reach (toy n) ((exec (toy n) (find k) s0).state.getD s0) := by
  cases h : exec (toy n) (find k) s0 with
  | ok s a => exact .step (find k) (.start _) trivial (.inr ⟨rfl, rfl⟩) (.inl h)
  | threw s => exact .step (find k) (.start _) trivial (.inr ⟨rfl, rfl⟩) (.inr h)
  | ub => exact .start _

/-- C43 is violated: a pointer obtained before `FindComponents` finds more components dangles after
the next `Update`. -/
theorem pointer_dangles : ∃ s : S Toy, Reach (toy 2) s ∧ ∃ s1 q s2,
    getValuePtr (toy 2) .Concentrations s = .ok s1 (some q) ∧
    runs (toy 2) [find 3, .update step] s1 = .ok s2 () ∧ deref s2 .Concentrations q = none := by
  refine ⟨_, find_reach 2 1, ?_⟩
  obtain ⟨s1, q, s2, h1, h2, h3, -⟩ := shows_spec (m := toy 2) (v := .Concentrations)
    (ops := [find 3, .update step]) (s := (exec (toy 2) (find 1) s0).state.getD s0)
    (d := none) (c := .vec [8, 8, 8, 8, 8, 8]) (by decide +kernel)
  exact ⟨s1, q, s2, h1, h2, h3⟩

-- C43: with the same components it stays valid and follows
example : shows (toy 2) .Concentrations [find 1, .setVec .Porosity [3, 3], .update step]
    ((exec (toy 2) (find 1) s0).state.getD s0) = some (some (.vec [4, 4]), .vec [4, 4]) := by
  decide +kernel

/-! ### Memory safety -/

/-- C87 is violated: setting the porosity before `FindComponents` writes past the end of the (empty)
buffer for the saturation. The call is the documented one, with a vector of the right size. -/
theorem early_set_overflows : ∃ s : S Toy, Reach (toy 2) s ∧
    (Op.setVec .Porosity [3, 3] : Op Toy).Safe (toy 2) s ∧
    setValueVec (toy 2) .Porosity [3, 3] s = .ub :=
  ⟨s0, .start _, rfl, R.isUb_iff (by decide +kernel)⟩

/-- C87 is violated: so does the module's own setter, once somebody has asked for `GridCellCount`. -/
theorem early_direct_set_overflows : ∃ s : S Toy, Reach (toy 2) s ∧
    (getValueInt (toy 2) .GridCellCount s0).state = some s ∧
    rmSet (toy 2) .Porosity { s.st with a := 3 } s = .ub := by
  cases h : getValueInt (toy 2) .GridCellCount s0 with
  | ok s a =>
    refine ⟨s, .step (s := s0) (.getInt .GridCellCount) (.start _) trivial trivial (.inl ?_), rfl, ?_⟩
    · show (getValueInt (toy 2) .GridCellCount s0).drop = _
      rw [h]; rfl
    · have : ((getValueInt (toy 2) .GridCellCount s0).state.map
        (fun s => (rmSet (toy 2) .Porosity { s.st with a := 3 } s).isUb)) = some true := by
        decide +kernel
      rw [h] at this
      exact R.isUb_iff (by simpa [R.state] using this)
  | threw s =>
    have : (getValueInt (toy 2) .GridCellCount s0).isThrow = false := by decide +kernel
    rw [h] at this; cases this
  | ub =>
    have : (getValueInt (toy 2) .GridCellCount s0).isUb = false := by decide +kernel
    rw [h] at this; cases this

-- C87: the theorem applies after `FindComponents`
example : Ready ((exec (toy 2) (find 1) s0).state.getD s0) := ⟨by decide +kernel, by decide +kernel⟩

/-! ### Strings through `void*` -/

/-- C88: the file prefix is read whole. -/
theorem prefix_read_whole_partial {σ : Type} {m : Mod σ} (hm : Lawful m) {s : S σ}
    (hr : Reach m s) (hne : m.str s.st .FilePrefix ≠ []) :
    ∃ s', getValueRaw m .FilePrefix s = .ok s' (.chars (m.str s.st .FilePrefix)) := by
  have h := inv_of_reach hm hr
  have hl : (s.va .FilePrefix).init = false := (h .FilePrefix).live rfl
  have hlen : (m.str s.st .FilePrefix).length ≠ 0 := by simpa using hne
  unfold getValueRaw ensure
  rw [hl]
  simp [varFn, plain, plainBody, setup, enter, S.upd, Var.allows, fetch, finish, Variant.basic,
    copyOut, Var.ctype, hlen, Nat.div_self (Nat.pos_of_ne_zero hlen)]

/-- Set the error string, directly in the module. -/
def failing (e : List Char) : Op Toy := .other (fun st => { st with err := e })

theorem failing_mild (e : List Char) (n : Nat) : (failing e).Mild (toy n) :=
  fun _ => ⟨rfl, rfl, rfl, rfl⟩

/-- C88 is violated: the error string is cut to the length it had when the variable was first
looked at (here, empty). -/
theorem error_string_cut : ∃ s : S Toy, Reach (toy 2) s ∧
    (getValueRaw (toy 2) .ErrorString s).val = some (.chars []) ∧
    (toy 2).str s.st .ErrorString = ['b', 'a', 'd'] := by
  cases h : runs (toy 2) [find 1, failing ['b', 'a', 'd']] s0 with
  | ok s a =>
    refine ⟨s, runs_reach [find 1, failing ['b', 'a', 'd']] (.start _) ?_ h, ?_, ?_⟩
    · exact ⟨trivial, .inr ⟨rfl, rfl⟩, fun s1 _ => ⟨failing_mild _ _, trivial, fun _ _ => trivial⟩⟩
    · have : ((runs (toy 2) [find 1, failing ['b', 'a', 'd']] s0).state.map
        (fun s => (getValueRaw (toy 2) .ErrorString s).val)) = some (some (.chars [])) := by
        decide +kernel
      rw [h] at this
      simpa [R.state] using this
    · have : ((runs (toy 2) [find 1, failing ['b', 'a', 'd']] s0).state.map
        (fun s => (toy 2).str s.st .ErrorString)) = some ['b', 'a', 'd'] := by decide +kernel
      rw [h] at this
      simpa [R.state] using this
  | threw s =>
    have : (runs (toy 2) [find 1, failing ['b', 'a', 'd']] s0).isThrow = false := by decide +kernel
    rw [h] at this; cases this
  | ub =>
    have : (runs (toy 2) [find 1, failing ['b', 'a', 'd']] s0).isUb = false := by decide +kernel
    rw [h] at this; cases this

/-- C88 is violated: a string that has become shorter by more than one character is read past its
end. -/
theorem error_string_overread : ∃ s : S Toy, Reach (toy 2) s ∧
    getValueRaw (toy 2) .ErrorString s = .ub := by
  cases h : runs (toy 2) [failing ['b', 'a', 'd'], find 1, failing []] s0 with
  | ok s a =>
    refine ⟨s, runs_reach [failing ['b', 'a', 'd'], find 1, failing []] (.start _) ?_ h,
      R.isUb_iff ?_⟩
    · refine ⟨failing_mild _ _, trivial, fun s1 h1 => ⟨trivial, .inr ?_, fun s2 _ =>
        ⟨failing_mild _ _, trivial, fun _ _ => trivial⟩⟩⟩
      rcases h1 with h1 | h1
      · simp only [failing, exec, R.ok.injEq, and_true] at h1
        rw [← h1]; exact ⟨rfl, rfl⟩
      · simp [failing, exec] at h1
    · have : ((runs (toy 2) [failing ['b', 'a', 'd'], find 1, failing []] s0).state.map
        (fun s => (getValueRaw (toy 2) .ErrorString s).isUb)) = some true := by
        decide +kernel
      rw [h] at this
      simpa [R.state] using this
  | threw s =>
    have : (runs (toy 2) [failing ['b', 'a', 'd'], find 1, failing []] s0).isThrow = false := by
      decide +kernel
    rw [h] at this; cases this
  | ub =>
    have : (runs (toy 2) [failing ['b', 'a', 'd'], find 1, failing []] s0).isUb = false := by
      decide +kernel
    rw [h] at this; cases this

/-! ### Failures -/

/-- C89 is violated: `Update` advances the time although `RunCells` returned an error. -/
theorem failed_run_advances : ∃ (s s' : S Toy) (run : Run Toy), Reach (toy 2) s ∧
    run.failed = true ∧ run.threw = false ∧ update (toy 2) run s = .ok s' () ∧
    (toy 2).num s'.st .Time ≠ (toy 2).num s.st .Time := by
  cases h : update (toy 2) ⟨id, true, false⟩ s0 with
  | ok s' a =>
    refine ⟨s0, s', ⟨id, true, false⟩, .start _, rfl, rfl, h, ?_⟩
    have := (update_ends_at_end_time (toy_lawful 2) (toy_timed 2) (.start _) ⟨id, true, false⟩
      (fun _ => Keeps.refl _ _) (fun _ _ => rfl) h).1
    rw [show (toy 2).num s'.st .Time = getEndTime (toy 2) s0 from this]
    decide +kernel
  | threw s =>
    have : (update (toy 2) ⟨id, true, false⟩ s0).isThrow = false := by decide +kernel
    rw [h] at this; cases this
  | ub =>
    have : (update (toy 2) ⟨id, true, false⟩ s0).isUb = false := by decide +kernel
    rw [h] at this; cases this

/-- C89 (as far as it holds): when the error comes out of `RunCells` as an exception, so it does out
of `Update`, and the time has not moved. -/
theorem thrown_run_stays_partial {σ : Type} {m : Mod σ} (s : S σ) (run : Run σ)
    (hn : run.threw = true) (hp : ∀ st w, m.num (run.f st) w = m.num st w) :
    ∃ s', update m run s = .threw s' ∧ m.num s'.st .Time = m.num s.st .Time := by
  refine ⟨{ s with st := run.f s.st }, ?_, hp _ _⟩
  unfold update; simp [hn]

/-- C90 is violated: a vector of the wrong size is not refused; the call returns as usual. -/
theorem wrong_size_returns : ∃ (s s' : S Toy), Reach (toy 2) s ∧
    setValueVec (toy 2) .Porosity [3, 3, 3] s = .ok s' () := by
  cases h : setValueVec (toy 2) .Porosity [3, 3, 3] s0 with
  | ok s' a => exact ⟨s0, s', .start _, h⟩
  | threw s =>
    have : (setValueVec (toy 2) .Porosity [3, 3, 3] s0).isThrow = false := by decide +kernel
    rw [h] at this; cases this
  | ub =>
    have : (setValueVec (toy 2) .Porosity [3, 3, 3] s0).isUb = false := by decide +kernel
    rw [h] at this; cases this

/-- C90 (as far as it holds): the values of the module are untouched. -/
theorem wrong_size_changes_nothing_partial {σ : Type} {m : Mod σ} (hm : Lawful m) {s : S σ}
    (hr : Reach m s) {v : Var} (hg : v.grid = true) {l : List ℚ} (hl : l.length ≠ m.size s.st v) :
    ∃ s', setValueVec m v l s = .ok s' () ∧ s'.st = s.st := by
  have h := inv_of_reach hm hr
  obtain ⟨s1, _, e1, h1, hi, -⟩ := (ensure_sat (u := False) (v := v) (Q := fun _ => False) h hm).get
  have hg' : v.isVec = true ∧ v ≠ .SelectedOutput := by simpa [Var.grid] using hg
  have hd := ((h1.inv v).shape hg'.1 hg'.2 (hi (grid_stays hg))).2.1
  refine ⟨s1, ?_, h1.st⟩
  unfold setValueVec
  rw [e1, R.bind_ok, if_pos (by rw [hd, h1.st]; exact fun e => hl e.symm)]

/-- C91 is violated: after a `GetValue` that threw, the module's own setter no longer reaches the
pointers. -/
theorem direct_setter_unseen : ∃ s : S Toy, Reach (toy 2) s ∧ ∃ s1 q s2,
    getValuePtr (toy 2) .Concentrations s = .ok s1 (some q) ∧
    runs (toy 2) [.getVec .SaturationUser, .rmSet .SaturationUser (fun st => { st with a := 3 })]
      s1 = .ok s2 () ∧
    deref s2 .Concentrations q = some (.vec [7, 7]) ∧
    current (toy 2) s2.st .Concentrations = .vec [3, 3] := by
  refine ⟨_, find_reach 2 1, ?_⟩
  exact shows_spec (m := toy 2) (v := .Concentrations)
    (ops := [.getVec .SaturationUser, .rmSet .SaturationUser (fun st => { st with a := 3 })])
    (s := (exec (toy 2) (find 1) s0).state.getD s0)
    (d := some (.vec [7, 7])) (c := .vec [3, 3]) (by decide +kernel)

-- C91: without the exception they follow
example : shows (toy 2) .Concentrations [.rmSet .SaturationUser (fun st => { st with a := 3 })]
    ((exec (toy 2) (find 1) s0).state.getD s0) = some (some (.vec [3, 3]), .vec [3, 3]) := by
  decide +kernel

end Verif.BMI
