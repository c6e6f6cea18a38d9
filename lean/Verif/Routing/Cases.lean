import Verif.Routing.Props

/-! # Concrete cases for running input in the instances -/

namespace Verif.Routing

open Verif.Setters Verif.FString

/-- A toy PHREEQC: the chemistry is the list of inputs run so far; the input `x` fails and `!`
ends with an exception. -/
def toy : Engine (List Str) where
  runString c t := if t = ['!'] then .threw c else .finished (if t = ['x'] then 2 else 0) (c ++ [t])
  runFile c t := .finished 0 (c ++ ['f' :: t])
  loadDatabase c t := if c = [['b']] then .finished 1 [] else .finished 0 [t]
  errorString c := "errors after " ++ toString c.length
  outputString c := "output of " ++ toString c.length

def toyInst (k : Nat) : Inst (List Str) :=
  ⟨List.replicate k ['a'], true, true, true, true, false, true⟩

/-- Two workers, all printing. -/
def toyRM : RM (List Str) where
  nthreads := 2
  insts := [toyInst 0, toyInst 1, toyInst 2, toyInst 3]
  mode := 0
  err := ["old"]
  out := []
  print := (true, true, true)
  chemistryFile := []
  databaseFile := []
  speciesSaveOn := true

/-- What can be compared of a result. -/
def view : Out (RM (List Str) × Ret) → Out (List (List Str) × List String × List String × Ret)
  | .ok (s, r) => .ok (s.insts.map Inst.chem, s.err, s.out, r)
  | .throw => .throw
  | .ub => .ub

/-- In the workers and Utility. -/
example : view (runString toy none [0, 1, 2, 3] true false true ['q'] toyRM) =
    .ok ([[['q']], [['a'], ['q']], [['a'], ['a']], [['a'], ['a'], ['a'], ['q']]], [],
      ["output of 1", "output of 2", "output of 4"], .value .ok) := by decide +kernel

/-- A failing run in InitialPhreeqc. -/
example : ∃ e, view (runString toy none [3, 2, 1, 0] false true false ['x'] toyRM) =
    .ok ([[], [['a']], [['a'], ['a'], ['x']], [['a'], ['a'], ['a']]],
      e, [], .value .fail) ∧ "errors after 3" ∈ e := ⟨_, by rfl, by decide +kernel⟩

/-- Four turns shared by two threads, as `omp for` does: workers on the first thread, the others
on the second. -/
example : view (runString toy (some (· / 2)) [0, 2, 1, 3] true true false ['q'] toyRM) = .ub := by
  decide +kernel

/-- The premises of `print_race_violated` hold for it. -/
example : Prints (Wanted true true false 2) (fun c => toy.runString c ['q']) toyRM 0 ∧
    Prints (Wanted true true false 2) (fun c => toy.runString c ['q']) toyRM 2 := by
  refine ⟨⟨Or.inl ⟨by decide, rfl⟩, Or.inl ⟨by decide, rfl⟩, toyInst 0, rfl, ?_⟩,
    ⟨Or.inr (Or.inl ⟨rfl, rfl⟩), Or.inr (Or.inl ⟨rfl, rfl⟩), toyInst 2, rfl, ?_⟩⟩ <;>
  decide +kernel

/-- Only the workers, on one thread: no race, and `runString_partial` applies. -/
example : ∃ s' r, runString toy (some (· / 2)) [1, 0, 3, 2] true false false ['q'] toyRM =
    .ok (s', r) ∧ r = .value .ok := by
  obtain ⟨s', r, h, hr, _⟩ := runString_partial toy (some (· / 2)) [1, 0, 3, 2] true false false
    ['q'] toyRM rfl (by decide) (by decide) (by
      intro f hf n m ⟨hn, _⟩ ⟨hm, _⟩
      cases hf
      simp only [Wanted, Bool.false_eq_true, and_false, or_false, toyRM] at hn hm
      show n / 2 = m / 2
      omega)
  refine ⟨s', r, h, hr.good.mpr ?_⟩
  intro n i _ _
  simp [toy, Run.Fails]

example : view (runFile toy none [0, 1, 2, 3] false true false ['p'] toyRM) =
    .ok ([[], [['a']], [['a'], ['a'], ['f', 'p']], [['a'], ['a'], ['a']]], [], ["output of 3"],
      .value .ok) := by decide +kernel

/-- Loading replaces the chemistry everywhere; the Utility instance no longer saves species. -/
example : ∃ s, loadDatabase toy ['d'] toyRM = .ok (s, .value .ok) ∧
    s.insts.map Inst.chem = List.replicate 4 [['d']] ∧
    s.insts.map Inst.saveSpecies = [true, true, true, false] :=
  ⟨_, by rfl, by decide +kernel, by decide +kernel⟩

end Verif.Routing
