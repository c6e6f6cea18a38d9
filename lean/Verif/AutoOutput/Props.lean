import Verif.AutoOutput.Lemmas

/-!
# Columns and values of the automatic output variables
-/

namespace Verif.AutoOutput

open Verif.OMap

/-- The calls that matter. -/
inductive Op
  | add (option d : Name)
  | gen (L : Lists)
  | run (on : Bool) (w : Expr → Nat → ℚ)
  | get (name : Name)

def step (nxyz : Nat) : Op → S → S
  | .add o d, s => addOutputVars o d s
  | .gen L, s => generate L s
  | .run on w, s => runCells nxyz on w s
  | .get n, s => (getValue nxyz n s).2

/-- The state after a sequence of calls. -/
def exec (nxyz : Nat) (ops : List Op) (s : S) : S := ops.foldl (fun s o => step nxyz o s) s

/-- Calls that do not generate the variables anew. -/
def Op.NoGen : Op → Prop
  | .gen _ => False
  | _ => True

/-- Calls that only read values or change the options for the next generation. -/
def Op.Quiet : Op → Prop
  | .gen _ | .run _ _ => False
  | _ => True

/-- No two names equal up to case. -/
def CaseDistinct (es : List Entry) : Prop := (es.map (fun e => lower e.name)).Nodup

theorem CaseDistinct.names {es : List Entry} (h : CaseDistinct es) :
    (es.map Entry.name).Nodup := by
  refine List.Pairwise.of_map (S := (· ≠ ·)) lower (fun a b hab e => hab (by rw [e])) ?_
  rw [List.map_map]
  exact h

theorem exec_append (nxyz : Nat) (a b : List Op) (s : S) :
    exec nxyz (a ++ b) s = exec nxyz b (exec nxyz a s) := by
  simp [exec, List.foldl_append]

theorem get_vars (nxyz : Nat) (n : Name) (s : S) : (getValue nxyz n s).2.vars = s.vars := by
  unfold getValue
  split <;> rfl

theorem get_punch (nxyz : Nat) (n : Name) (s : S) : (getValue nxyz n s).2.punch = s.punch := by
  unfold getValue
  split <;> rfl

theorem get_table (nxyz : Nat) (n : Name) (s : S) : (getValue nxyz n s).2.table = s.table := by
  unfold getValue
  split <;> rfl

theorem add_vars (o d : Name) (s : S) :
    (addOutputVars o d s).vars = s.vars ∧ (addOutputVars o d s).punch = s.punch ∧
    (addOutputVars o d s).table = s.table ∧ (addOutputVars o d s).data = s.data := by
  unfold addOutputVars
  split <;> exact ⟨rfl, rfl, rfl, rfl⟩

theorem step_noGen (nxyz : Nat) (o : Op) (h : o.NoGen) (s : S) :
    (step nxyz o s).vars = s.vars ∧ (step nxyz o s).punch = s.punch := by
  cases o with
  | add o d => exact ⟨(add_vars o d s).1, (add_vars o d s).2.1⟩
  | gen L => exact h.elim
  | run on w => exact ⟨rfl, rfl⟩
  | get n => exact ⟨get_vars nxyz n s, get_punch nxyz n s⟩

theorem exec_noGen (nxyz : Nat) (ops : List Op) (h : ∀ o ∈ ops, o.NoGen) (s : S) :
    (exec nxyz ops s).vars = s.vars ∧ (exec nxyz ops s).punch = s.punch := by
  induction ops generalizing s with
  | nil => exact ⟨rfl, rfl⟩
  | cons o ops ih =>
    have h1 := step_noGen nxyz o (h o List.mem_cons_self) s
    have h2 := ih (fun x hx => h x (List.mem_cons_of_mem _ hx)) (step nxyz o s)
    exact ⟨h2.1.trans h1.1, h2.2.trans h1.2⟩

/-- Fetched or not, the table shows. -/
def Shows (t : List (Name × List ℚ)) (s : S) : Prop :=
  s.table = some t ∧ (s.data = [] ∨ s.data = t.flatMap Prod.snd)

theorem Shows.fetch {t : List (Name × List ℚ)} {s : S} (h : Shows t s) :
    fetch s = t.flatMap Prod.snd := by
  unfold AutoOutput.fetch
  rcases h with ⟨h1, h2 | h2⟩
  · rw [if_pos h2, h1]
  · split
    · rw [h1]
    · exact h2

theorem Shows.step {t : List (Name × List ℚ)} {s : S} (h : Shows t s) (nxyz : Nat) (o : Op)
    (ho : o.Quiet) : Shows t (step nxyz o s) := by
  cases o with
  | add o d =>
    obtain ⟨-, -, h3, h4⟩ := add_vars o d s
    exact ⟨h3.trans h.1, by rw [show AutoOutput.step nxyz (.add o d) s = addOutputVars o d s from rfl, h4]; exact h.2⟩
  | gen L => exact ho.elim
  | run on w => exact ho.elim
  | get n =>
    refine ⟨(get_table nxyz n s).trans h.1, ?_⟩
    show (getValue nxyz n s).2.data = [] ∨ (getValue nxyz n s).2.data = _
    unfold getValue
    split
    · exact h.2
    · exact .inr h.fetch

theorem Shows.exec {t : List (Name × List ℚ)} {s : S} (h : Shows t s) (nxyz : Nat)
    (ops : List Op) (ho : ∀ o ∈ ops, o.Quiet) : Shows t (exec nxyz ops s) := by
  induction ops generalizing s with
  | nil => exact h
  | cons o ops ih =>
    exact ih (h.step nxyz o (ho o List.mem_cons_self)) (fun x hx => ho x (List.mem_cons_of_mem _ hx))

/-- The state after generating from `s`, any further calls without generation, a run with
selected output on, and reads. -/
theorem after_run (nxyz : Nat) (L : Lists) (s : S) (post reads : List Op)
    (w : Expr → Nat → ℚ) (hon : processDef (s.defs .AddOutputVars) = .on)
    (hne : entries L s.defs ≠ [])
    (hpost : ∀ o ∈ post, o.NoGen) (hreads : ∀ o ∈ reads, o.Quiet) :
    let f := exec nxyz (.gen L :: post ++ .run true w :: reads) s
    f.vars = addVars s.vars 0 (entries L s.defs) ∧
      Shows (columns nxyz w (entries L s.defs)) f := by
  intro f
  have hg : generate L s = { s with
      vars := addVars s.vars 0 (entries L s.defs)
      punch := entries L s.defs } := by
    unfold generate
    rw [if_neg (not_not.mpr hon), if_neg hne]
  have hp := exec_noGen nxyz post hpost (generate L s)
  rw [hg] at hp
  dsimp only at hp
  have hf : f = exec nxyz reads (runCells nxyz true w (exec nxyz post (generate L s))) := by
    show exec nxyz (.gen L :: post ++ .run true w :: reads) s = _
    rw [exec_append]
    rfl
  have hq : ∀ o ∈ reads, o.NoGen := fun o ho => by
    have := hreads o ho
    cases o <;> trivial
  constructor
  · rw [hf, (exec_noGen nxyz reads hq _).1]
    show (exec nxyz post (generate L s)).vars = _
    rw [hg]; exact hp.1
  · rw [hf]
    apply Shows.exec _ _ _ hreads
    refine ⟨?_, .inl rfl⟩
    show (if _ then _ else _) = _
    rw [hg, hp.2, if_pos ⟨rfl, hne⟩]

theorem getValue_at (nxyz : Nat) (w : Expr → Nat → ℚ) (es a b : List Entry) (e : Entry)
    (hes : es = a ++ e :: b) (hd : (es.map Entry.name).Nodup) (s : S) (name nm : Name)
    (hs : Shows (columns nxyz w es) s) (hf : find s.vars (lower name) = some (nm, a.length)) :
    (getValue nxyz name s).1 = .ok ((List.range nxyz).map (w e.expr)) := by
  unfold getValue
  rw [hf]
  dsimp only
  rw [hs.fetch, columns_distinct nxyz w es hd, hes, List.flatMap_map]
  have := slice_flat nxyz (fun e : Entry => (List.range nxyz).map (w e.expr))
    (by intro x; simp) a e b
  rw [if_pos this.2, this.1]

/-- **C44** (names distinct up to case). Whatever the options, and from whatever earlier state in
which no name is listed that is not generated again: after generating, any further runs, reads
and option changes, and a run with selected output on, every generated variable has the column
of its position, and reading it under its name in any case gives, in every cell, what its own
expression computes in the last run. No other name is found. -/
theorem auto_columns_partial (nxyz : Nat) (L : Lists) (s : S) (post reads : List Op)
    (w : Expr → Nat → ℚ) (hon : processDef (s.defs .AddOutputVars) = .on)
    (hpost : ∀ o ∈ post, o.NoGen) (hreads : ∀ o ∈ reads, o.Quiet)
    (hd : CaseDistinct (entries L s.defs))
    (hold : ∀ k ∈ keys s.vars, ∃ e ∈ entries L s.defs, lower e.name = k)
    (hne : entries L s.defs ≠ []) :
    let f := exec nxyz (.gen L :: post ++ .run true w :: reads) s
    (∀ (i : Nat) (e : Entry), (entries L s.defs)[i]? = some e →
      find f.vars (lower e.name) = some (e.name, i)) ∧
    (∀ e ∈ entries L s.defs, ∀ name, lower name = lower e.name →
      (getValue nxyz name f).1 = .ok ((List.range nxyz).map (w e.expr))) ∧
    (∀ name, (∀ e ∈ entries L s.defs, lower name ≠ lower e.name) →
      (getValue nxyz name f).1 = .throw) := by
  intro f
  obtain ⟨hv, hs⟩ := after_run nxyz L s post reads w hon hne hpost hreads
  have key : ∀ (a b : List Entry) (e : Entry), entries L s.defs = a ++ e :: b →
      find f.vars (lower e.name) = some (e.name, a.length) := by
    intro a b e he
    rw [hv, he, addVars_last a e b s.vars 0, Nat.zero_add]
    intro x hx heq
    unfold CaseDistinct at hd
    rw [he, List.map_append, List.map_cons, List.nodup_append, List.nodup_cons] at hd
    exact hd.2.1.1 (List.mem_map.mpr ⟨x, hx, heq⟩)
  refine ⟨?_, ?_, ?_⟩
  · intro i e hi
    obtain ⟨hlt, he⟩ := List.getElem?_eq_some_iff.mp hi
    have hsplit : entries L s.defs =
        (entries L s.defs).take i ++ e :: (entries L s.defs).drop (i + 1) := by
      rw [← he, List.getElem_cons_drop, List.take_append_drop]
    have := key _ _ _ hsplit
    rwa [List.length_take, Nat.min_eq_left (le_of_lt hlt)] at this
  · intro e he name hn
    obtain ⟨a, b, hab⟩ := List.append_of_mem he
    exact getValue_at nxyz w _ a b e hab hd.names f name e.name hs (by rw [hn]; exact key a b e hab)
  · intro name hn
    have : find f.vars (lower name) = none := by
      rw [hv, addVars_other _ _ _ _ (fun e he h => hn e he h.symm)]
      rw [find_eq_none_iff]
      intro hm
      obtain ⟨e, he, h⟩ := hold _ hm
      exact hn e he h.symm
    unfold getValue
    rw [this]

/-- **C44**, what happens otherwise: of two generated variables with names equal up to case the
earlier one cannot be read; its name gives the column of the last one. -/
theorem case_twin_hidden (L : Lists) (s : S) (a b c : List Entry) (e e' : Entry)
    (hon : processDef (s.defs .AddOutputVars) = .on)
    (hes : entries L s.defs = a ++ e :: (b ++ e' :: c)) (heq : lower e.name = lower e'.name)
    (hlast : ∀ x ∈ c, lower x.name ≠ lower e'.name) :
    find (generate L s).vars (lower e.name) = some (e'.name, a.length + b.length + 1) := by
  unfold generate
  rw [if_neg (not_not.mpr hon)]
  dsimp only
  rw [hes, heq, show a ++ e :: (b ++ e' :: c) = (a ++ e :: b) ++ e' :: c by simp,
    addVars_last _ _ _ _ _ hlast]
  simp only [List.length_append, List.length_cons, Nat.zero_add]
  rfl

/-- **C92.** When the generated names are distinct (up to case or not) and every name listed
before is generated again, no read after a run with selected output on leaves the table. -/
theorem auto_read_safe_partial (nxyz : Nat) (L : Lists) (s : S) (post reads : List Op)
    (w : Expr → Nat → ℚ) (hon : processDef (s.defs .AddOutputVars) = .on)
    (hpost : ∀ o ∈ post, o.NoGen) (hreads : ∀ o ∈ reads, o.Quiet)
    (hd : ((entries L s.defs).map Entry.name).Nodup)
    (hold : ∀ k ∈ keys s.vars, ∃ e ∈ entries L s.defs, lower e.name = k)
    (hne : entries L s.defs ≠ []) (name : Name) :
    (getValue nxyz name (exec nxyz (.gen L :: post ++ .run true w :: reads) s)).1 ≠ .ub := by
  obtain ⟨hv, hs⟩ := after_run nxyz L s post reads w hon hne hpost hreads
  cases hf : find (exec nxyz (.gen L :: post ++ .run true w :: reads) s).vars (lower name) with
  | none =>
    unfold getValue
    rw [hf]
    exact fun h => nomatch h
  | some v =>
    rw [hv] at hf
    rcases addVars_find _ _ _ _ _ hf with ⟨h1, h2⟩ | ⟨a, e, b, h1, h2, h3⟩
    · obtain ⟨e, he, h⟩ := hold _ ((mem_keys_iff _ _).mpr ⟨_, h1⟩)
      exact (h2 e he h).elim
    · rw [getValue_at nxyz w _ a b e h1 hd _ name e.name hs (by rw [hv, hf, h3, Nat.zero_add])]
      exact fun h => nomatch h

end Verif.AutoOutput
