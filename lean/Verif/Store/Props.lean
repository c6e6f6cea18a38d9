import Verif.Store.Lemmas

/-! # C54: copying and removing stored cells affects only those cells -/

namespace Verif.Store

variable {α : Type}

/-- C54, copy. For every bin and all cell numbers: the destination becomes identical to
the source in every kind of reactant (kinds absent in the source become absent), and no
other cell changes. -/
theorem copy_spec (b : Bin α) (d s : Int) :
    (∀ k, copy b d s k d = b k s) ∧ ∀ k m, m ≠ d → copy b d s k m = b k m := by
  unfold copy
  split
  · rename_i h
    subst h
    exact ⟨fun _ => rfl, fun _ _ _ => rfl⟩
  · rename_i h
    have hs : ∀ k, remove b d k s = b k s := fun k => by
      rw [remove_apply, if_neg]; exact fun e => h e.symm
    constructor
    · intro k
      rw [foldl_copy _ _ _ h, hs]
      cases hb : b k s with
      | none => simp [remove_apply]
      | some v => simp [mem_copyKinds]
    · intro k m hm
      rw [foldl_copy _ _ _ h, if_neg (fun e => hm e.2.1), remove_apply, if_neg hm]

/-- C54, remove. All kinds of the cell disappear and no other cell changes. -/
theorem remove_spec (b : Bin α) (n : Int) :
    (∀ k, remove b n k n = none) ∧ ∀ k m, m ≠ n → remove b n k m = b k m := by
  constructor
  · intro k; simp [remove_apply]
  · intro k m h; simp [remove_apply, h]

/-- C54, add from another bin: entities of the source win, kinds absent in the source
keep the previous entity, no other cell changes. -/
theorem add_spec (b src : Bin α) (n : Int) :
    (∀ k v, src k n = some v → add b src n k n = some v) ∧
    (∀ k, src k n = none → add b src n k n = b k n) ∧
    ∀ k m, m ≠ n → add b src n k m = b k m := by
  refine ⟨fun k v h => ?_, fun k h => ?_, fun k m h => ?_⟩
  · simp [add_apply, h]
  · simp [add_apply, h]
  · simp [add_apply, h]

/-- A bin with a solution and a surface in cell 1 and an exchanger in cell 2: copying
1 to 2 brings both and removes the exchanger. -/
example : let b : Bin Nat := set (set (set empty .solution 1 10) .surface 1 20) .exchange 2 30
    copy b 2 1 .solution 2 = some 10 ∧ copy b 2 1 .surface 2 = some 20 ∧
      copy b 2 1 .exchange 2 = none := by decide

end Verif.Store
