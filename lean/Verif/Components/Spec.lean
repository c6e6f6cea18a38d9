import Verif.Components.Model
import Mathlib.Logic.Relation

/-!
# Finding components: specification
-/

namespace Verif.Components

/-- The name that was given last to `t` in a list of definitions (thing, name). -/
def lastName : List (Name × Name) → Name → Option Name
  | [], _ => none
  | p :: l, t =>
    match lastName l t with
    | some n => some n
    | none => if p.1 = t then some p.2 else none

/-- Two phases are linked when there is a chain of phases from one to the other in which
neighbours are in one solid solution. -/
def Linked (sss : List (Name × List Name)) : Name → Name → Prop :=
  Relation.ReflTransGen (fun a b => ∃ p ∈ sss, a ∈ p.2 ∧ b ∈ p.2)

/-- The worker's paired lists are as long as each other. -/
def Source.Paired (w : Source) : Prop :=
  w.surfTypes.length = w.surfNames.length ∧ w.ssComps.length = w.ssNames.length

/-- The module's paired lists are as long as each other. -/
def State.Paired (s : State) : Prop :=
  s.surfTypes.length = s.surfSpecies.length ∧ s.surfNames.length = s.surfSpecies.length ∧
    s.exNames.length = s.exSpecies.length ∧ s.ssNames.length = s.ssComps.length

/-- A history of calls of `FindComponents`, whatever they return. -/
def calls (s : State) (ws : List Source) : Out State :=
  ws.foldlM (fun s w => do
    let r ← findComponents s w
    Out.ok r.2) s

/-- A history of calls of `FindComponents`; the sources of those that succeeded are `ok`. -/
inductive Ran : State → List Source → State → Prop
  | nil (s) : Ran s [] s
  | good {s ok s' w n s''} : Ran s ok s' → w.Paired → findComponents s' w = .ok (n, s'') →
      n ≠ -7 → Ran s (ok ++ [w]) s''
  | bad {s ok s' w s''} : Ran s ok s' → w.Paired → findComponents s' w = .ok (-7, s'') →
      Ran s ok s''

end Verif.Components
