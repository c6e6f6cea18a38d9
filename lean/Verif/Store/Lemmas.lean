import Verif.Store.Model

/-! # Helper lemmas about storage bins -/

namespace Verif.Store

variable {α : Type}

theorem foldl_erase (ks : List Kind) (n : Int) (b : Bin α) (k : Kind) (m : Int) :
    ks.foldl (fun b k => erase b k n) b k m = if k ∈ ks ∧ m = n then none else b k m := by
  induction ks generalizing b with
  | nil => simp
  | cons x xs ih =>
    rw [List.foldl_cons, ih]
    by_cases h1 : m = n <;> by_cases h2 : k = x <;> by_cases h3 : k ∈ xs <;>
      simp_all [erase]

theorem setIf_apply (b : Bin α) (k k' : Kind) (n m : Int) (src : Option α) :
    setIf b k n src k' m = if k' = k ∧ m = n ∧ src.isSome then src else b k' m := by
  cases src with
  | none => simp [setIf]
  | some v => simp [setIf, set]

/-- Storing from a fixed source. -/
theorem foldl_setIf (ks : List Kind) (n : Int) (src : Kind → Option α) (b : Bin α) (k : Kind)
    (m : Int) : ks.foldl (fun b k => setIf b k n (src k)) b k m =
      if k ∈ ks ∧ m = n ∧ (src k).isSome then src k else b k m := by
  induction ks generalizing b with
  | nil => simp
  | cons x xs ih =>
    rw [List.foldl_cons, ih, setIf_apply]
    by_cases h1 : m = n <;> by_cases h2 : k = x <;> by_cases h3 : k ∈ xs <;>
      simp_all

/-- Storing from another number of the same bin. -/
theorem foldl_copy (ks : List Kind) (d s : Int) (hds : d ≠ s) (b : Bin α) (k : Kind) (m : Int) :
    ks.foldl (fun b k => setIf b k d (b k s)) b k m =
      if k ∈ ks ∧ m = d ∧ (b k s).isSome then b k s else b k m := by
  induction ks generalizing b with
  | nil => simp
  | cons x xs ih =>
    have hs : setIf b x d (b x s) k s = b k s := by
      rw [setIf_apply, if_neg]; intro h; exact hds h.2.1.symm
    rw [List.foldl_cons, ih, hs, setIf_apply]
    by_cases h1 : m = d <;> by_cases h2 : k = x <;> by_cases h3 : k ∈ xs <;>
      simp_all

theorem mem_removeKinds (k : Kind) : k ∈ removeKinds := by cases k <;> decide
theorem mem_addKinds (k : Kind) : k ∈ addKinds := by cases k <;> decide
theorem mem_copyKinds (k : Kind) : k ∈ copyKinds := by cases k <;> decide
theorem mem_deleteKinds (k : Kind) : k ∈ deleteKinds := by cases k <;> decide
theorem mem_toPhreeqcKinds (k : Kind) : k ∈ toPhreeqcKinds := by cases k <;> decide

theorem remove_apply (b : Bin α) (n : Int) (k : Kind) (m : Int) :
    remove b n k m = if m = n then none else b k m := by
  simp [remove, foldl_erase, mem_removeKinds]

theorem deleteCell_apply (b : Bin α) (n : Int) (k : Kind) (m : Int) :
    deleteCell b n k m = if m = n then none else b k m := by
  simp [deleteCell, foldl_erase, mem_deleteKinds]

theorem add_apply (b src : Bin α) (n : Int) (k : Kind) (m : Int) :
    add b src n k m = if m = n ∧ (src k n).isSome then src k n else b k m := by
  simp [add, foldl_setIf _ n (fun k => src k n), mem_addKinds]

theorem bin2phreeqc_apply (p sb : Bin α) (n : Int) (k : Kind) (m : Int) :
    bin2phreeqc p sb n k m = if m = n ∧ (sb k n).isSome then sb k n else p k m := by
  simp [bin2phreeqc, foldl_setIf _ n (fun k => sb k n), mem_toPhreeqcKinds]

theorem phreeqc2bin_apply (p sb : Bin α) (n : Int) (k : Kind) (m : Int) :
    phreeqc2bin p sb n k m =
      if k ∈ toBinKinds ∧ m = n ∧ (p k n).isSome then p k n else sb k m := by
  simp only [phreeqc2bin, foldl_setIf _ n (fun k => p k n)]

end Verif.Store
