import Verif.Serial.EntitySpec
import Verif.Serial.CellsLemmas
import Verif.Transfer.Spec

/-!
# What a process holds for a cell
-/

namespace Verif.MpiMove

open Verif.OMap Verif.Serial Verif.Store Verif.Ranges Verif.Transfer

/-- The reactant of a kind filed under a number. -/
def view (m : Cells) : Kind → Int → Option Entity
  | .solution, n => (find m.solutions n).map Entity.solution
  | .exchange, n => (find m.exchanges n).map Entity.exchange
  | .gasPhase, n => (find m.gases n).map Entity.gas
  | .kinetics, n => (find m.kinetics n).map Entity.kinetics
  | .ppAssemblage, n => (find m.pps n).map Entity.pp
  | .ssAssemblage, n => (find m.sss n).map Entity.ss
  | .surface, n => (find m.surfaces n).map Entity.surface
  | .temperature, n => (find m.temperatures n).map Entity.temperature
  | .pressure, n => (find m.pressures n).map Entity.pressure
  | _, _ => none

/-- `n_user` of a reactant. -/
def num : Entity → Int
  | .solution x => x.head.nUser
  | .exchange x => x.head.nUser
  | .gas x => x.head.nUser
  | .kinetics x => x.head.nUser
  | .pp x => x.head.nUser
  | .ss x => x.head.nUser
  | .surface x => x.head.nUser
  | .temperature x => x.head.nUser
  | .pressure x => x.head.nUser

/-- The cells `0 .. count-1` are held, with the contents `content`, by the process whose range
contains them and by no other. -/
def Held (count : Int) (rs : List (Int × Int)) (content : Int → Kind → Option Entity)
    (w : Nat → Cells) : Prop :=
  ∀ i c kd, 0 ≤ c → c < count → CellKind kd →
    (Owns rs i c → view (w i) kd c = content c kd) ∧ (¬ Owns rs i c → view (w i) kd c = none)

/-- The reactants of the cells can be packed and carry their own number. -/
def ContentOk (count : Int) (content : Int → Kind → Option Entity) : Prop :=
  ∀ c kd e, 0 ≤ c → c < count → CellKind kd → content c kd = some e → num e = c ∧ e.Sendable

end Verif.MpiMove
