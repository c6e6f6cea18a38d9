import Verif.Dump.Props
import Verif.Dump.Digits

/-!
# Cases and violations for dumps
-/

namespace Verif.Dump

open Verif.Store Verif.State

/-- Two workers, three cells; solids in both zones of cell 1. -/
def demo : List (DWorker Nat) :=
  [{ range := (0, 1)
     rx := fun k => if k = .solution then [(0, ⟨0, 10⟩), (1, ⟨1, 11⟩)]
       else if k = .exchange then [(1, ⟨1, 5⟩)] else []
     uz := fun k => if k = .exchange then [(1, ⟨1, 7⟩)] else [] },
   { range := (2, 2)
     rx := fun k => if k = .solution then [(2, ⟨2, 12⟩)] else []
     uz := fun k => if k = .surface then [(2, ⟨2, 3⟩)] else [] }]

theorem demo_ready : Ready 3 demo where
  ranges := by simp [demo, Ranges.Contig]
  rx := by
    intro w hw k
    simp only [demo, List.mem_cons, List.not_mem_nil, or_false] at hw
    rcases hw with rfl | rfl <;> cases k <;> simp [OMap.Sorted]
  uz := by
    intro w hw k
    simp only [demo, List.mem_cons, List.not_mem_nil, or_false] at hw
    rcases hw with rfl | rfl <;> cases k <;> simp [OMap.Sorted]

/-- The records of the case, with solids of both zones added. -/
example : dumpRecords 10000 (demo.map (fun w => (w.range, szUz (fun _ a b => a + b) true w))) =
    [(.solution, ⟨0, 10⟩), (.solution, ⟨1, 11⟩), (.exchange, ⟨1, 12⟩), (.solution, ⟨2, 12⟩),
      (.surface, ⟨2, 3⟩)] := by decide +kernel

/-- Small blocks: each worker is dumped in several pieces. -/
example : dumpRecords 1 (demo.map (fun w => (w.range, szUz (fun _ a b => a + b) false w))) =
    [(.solution, ⟨0, 10⟩), (.solution, ⟨2, 12⟩), (.solution, ⟨1, 11⟩), (.exchange, ⟨1, 5⟩)] := by
  decide +kernel

/-- A module in which `SetGasCompMoles` has made gas phases in cells 0, 1 and 2: they all carry
the number 1 (`Verif.Gas`). -/
def gasDemo : List (DWorker Nat) :=
  [{ range := (0, 2)
     rx := fun k => if k = .gasPhase then [(0, ⟨1, 20⟩), (1, ⟨1, 21⟩), (2, ⟨1, 22⟩)] else []
     uz := fun _ => [] }]

/-- **C55 violated.** Of the three gas phases one is dumped, that of cell 2, under the number of
cell 1. -/
theorem dump_gas_lost :
    dumpRecords 10000 (gasDemo.map (fun w => (w.range, szUz (fun _ a b => a + b) false w))) =
      [(.gasPhase, ⟨1, 22⟩)] ∧
    ∀ c ∈ [0, 1, 2], ∃ w ∈ gasDemo, (content (fun _ a b => a + b) false w .gasPhase c).isSome := by
  decide +kernel

/-- **C56 violated.** A pressure is not dumped. -/
theorem dump_pressure_lost :
    ∃ b : Maps Nat, GoodMaps b ∧ OMap.find (b .pressure) 1 = some ⟨1, 30⟩ ∧
      OMap.find (readRaw (dumpRaw b) .pressure) 1 = none := by
  refine ⟨fun k => if k = .pressure then [(1, ⟨1, 30⟩)] else [], ?_, by decide +kernel,
    by decide +kernel⟩
  intro k
  cases k <;> simp [OMap.Sorted]

/-- In general no dump holds a pressure. -/
theorem dump_no_pressure {α : Type} (b : Maps α) (c : Int) :
    OMap.find (readRaw (dumpRaw b) .pressure) c = none := by
  have h : ∀ (xs : List (Record α)) (b : Maps α), (∀ x ∈ xs, x.1 ≠ .pressure) →
      (xs.foldl readRecord b) .pressure = b .pressure := by
    intro xs
    induction xs with
    | nil => intro b _; rfl
    | cons x xs ih =>
      intro b hx
      rw [List.foldl_cons, ih _ (fun y hy => hx y (List.mem_cons_of_mem _ hy))]
      have := hx x List.mem_cons_self
      unfold readRecord
      split
      · simp [this.symm]
      · rfl
  rw [readRaw, h _ _ (fun x hx => ((mem_dumpRaw b x).mp hx).1)]
  rfl

/-- A case of `dump_read_partial`. -/
example : OMap.find (readRaw (dumpRaw (fun k => if k = .surface then [(-2, ⟨-2, 1⟩), (4, ⟨4, 9⟩)]
    else [] : Maps Nat)) .surface) 4 = some ⟨4, 9⟩ := by decide +kernel

/-- The number of cells at which `dump_defined_iff` changes, with two workers. -/
example : Ranges.Contig 0 (21474837 : Nat) [(0, 10000000), (10000001, 21474836)] := by
  simp [Ranges.Contig]

end Verif.Dump
