import Verif.Raw.Parser

/-!
# Restart from a dump file: specification vocabulary
-/

namespace Verif.Raw

open Verif.OMap Verif.NameDouble

/-- Every value of a list of names and values replaced by its rounding. -/
def rounded {κ : Type} (rnd : ℚ → ℚ) (nd : SMap κ ℚ) : SMap κ ℚ :=
  nd.map (fun p => (p.1, rnd p.2))

/-- The word does not start a keyword line or an option line and is, in lower case, not in the
list of options. -/
def Plain (opts : List Name) (w : Name) : Prop :=
  isKeyword w = false ∧ isOption w = false ∧ lower w ∉ opts

/-- What follows a data block: the end of the file or a line with a keyword. -/
def BlockEnd (ls : List Line) : Prop :=
  ls = [] ∨ ∃ w l ms, ls = (.word w :: l) :: ms ∧ isKeyword w = true

instance (opts : List Name) (w : Name) : Decidable (Plain opts w) := by
  unfold Plain; infer_instance

/-- A map as it can be written and read: keys increasing, names that are not taken for options
or keywords. -/
def ListOk (opts : List Name) (nd : ND) : Prop := Sorted nd ∧ ∀ p ∈ nd, Plain opts p.1

instance (opts : List Name) (nd : ND) : Decidable (ListOk opts nd) := by
  unfold ListOk Sorted; infer_instance

/-- The name `k` is the element part of a valence state in `nd` short of its last character:
`F` for `Fe(2)`. -/
def Shadowed (nd : ND) (k : Name) : Prop :=
  ∃ (c : Char) (s : Name), '(' ∉ k ∧ c ≠ '(' ∧ (k ++ c :: '(' :: s) ∈ keys nd

end Verif.Raw
