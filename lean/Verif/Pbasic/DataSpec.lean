import Verif.Pbasic.Struct

/-!
# The data of a program

The items behind the words `DATA` of a program, in the order of the program,
and what reading them into variables means.
-/

namespace Verif.Pbasic

/-- The list behind `DATA`: expressions with commas between them. -/
inductive WritesData : List Ex → List Tok → Prop where
  | one {e : Ex} {te : List Tok} (h : Writes 6 e te) : WritesData [e] te
  | more {e : Ex} {es : List Ex} {te ts : List Tok} (h : Writes 6 e te) (hs : WritesData es ts) :
      WritesData (e :: es) (te ++ .comma :: ts)

/-- A statement ends here: at the end of the line, at a colon or at `ELSE`. -/
def StmtEnd (ts : List Tok) : Prop :=
  ts = [] ∨ (∃ r, ts = .colon :: r) ∨ ∃ r, ts = .kw .kelse :: r

/-- The data in the tokens of a line: of all its `DATA` statements. -/
inductive LineData : List Ex → List Tok → Prop where
  | none {ts : List Tok} (h : ∀ t ∈ ts, t ≠ .kw .kdata) : LineData [] ts
  | data {pre items post : List Tok} {es es' : List Ex} (h : ∀ t ∈ pre, t ≠ .kw .kdata)
      (hi : WritesData es items) (he : StmtEnd post) (hp : LineData es' post) :
      LineData (es ++ es') (pre ++ .kw .kdata :: (items ++ post))
  | empty {pre post : List Tok} {es : List Ex} (h : ∀ t ∈ pre, t ≠ .kw .kdata)
      (he : StmtEnd post) (hp : LineData es post) : LineData es (pre ++ .kw .kdata :: post)

/-- The data of a program.  No line begins with a comma. -/
inductive ProgData : List Ex → List Line → Prop where
  | nil : ProgData [] []
  | cons {es es' : List Ex} {l : Line} {ls : List Line} (hc : ∀ r, l.txt ≠ .comma :: r)
      (h : LineData es l.txt) (hs : ProgData es' ls) : ProgData (es ++ es') (l :: ls)

/-- Reading items into simple variables, one after the other: an item is
evaluated when it is read. -/
inductive ReadsTo (A : Arith) : List V → List Ex → Env → Env → Prop where
  | nil {σ : Env} : ReadsTo A [] [] σ σ
  | cons {v : V} {vs : List V} {e : Ex} {es : List Ex} {σ σ1 σ' : Env} {x : Val}
      (h0 : (σ v).dims = []) (hd : Declared σ e) (h : value A σ e = .ok x)
      (hp : put σ v 0 x σ1) (hs : ReadsTo A vs es σ1 σ') : ReadsTo A (v :: vs) (e :: es) σ σ'

/-- The list behind `READ`: variables with commas between them. -/
inductive WritesVars : List V → List Tok → Prop where
  | one (v : V) : WritesVars [v] [.var v]
  | more {v : V} {vs : List V} {ts : List Tok} (h : WritesVars vs ts) :
      WritesVars (v :: vs) (.var v :: .comma :: ts)

end Verif.Pbasic
