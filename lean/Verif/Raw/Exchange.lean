import Verif.Raw.Parser

/-!
# `EXCHANGE_RAW`

Model of the writing and reading of an exchange assemblage
(`/repo/src/IPhreeqcPhast/IPhreeqc/phreeqcpp/ExchComp.cxx`, `Exchange.cxx`).
-/

namespace Verif.Raw

open Verif.OMap Verif.NameDouble

/-- `cxxExchComp`. -/
structure ExchComp where
  formula : Name
  totals : ND
  la : ℚ
  chargeBalance : ℚ
  phaseName : Name
  phaseProportion : ℚ
  rateName : Name
  formulaZ : ℚ
  deriving DecidableEq

/-- `cxxExchComp::dump_raw` (ExchComp.cxx:86-123). -/
def dumpExchComp (rnd : ℚ → ℚ) (c : ExchComp) : List Line :=
  [optLine "totals" []] ++ dumpND rnd c.totals
  ++ [optLine "charge_balance" [.num (rnd c.chargeBalance)], optLine "la" [.num (rnd c.la)]]
  ++ nameLine "phase_name" c.phaseName ++ nameLine "rate_name" c.rateName
  ++ [optLine "phase_proportion" [.num (rnd c.phaseProportion)],
      optLine "formula_z" [.num (rnd c.formulaZ)]]

/-- `cxxExchComp::vopts` (ExchComp.cxx:386-397). -/
def exchCompOpts : List Name :=
  ["formula", "moles", "la", "charge_balance", "phase_name", "rate_name", "formula_z",
   "phase_proportion", "totals", "formula_totals"].map String.toList

/-- The cases of `cxxExchComp::read_raw` (ExchComp.cxx:160-254). -/
def exchCompAct (n : Nat) (rest : List Tok) (s : RS ExchComp) : RS ExchComp :=
  match n with
  | 2 => (readNum (fun q c => { c with la := q }) 0 rest s).seen 2
  | 3 => (readNum (fun q c => { c with chargeBalance := q }) 0 rest s).seen 3
  | 4 => readWord (fun w c => { c with phaseName := w }) rest s
  | 5 => readWord (fun w c => { c with rateName := w }) rest s
  | 6 => (readNum (fun q c => { c with formulaZ := q }) 0 rest s).seen 6
  | 7 => readNum (fun q c => { c with phaseProportion := q }) 0 rest s
  | 8 => (readPair (fun w q c => { c with totals := insert c.totals w q }) rest s).setSave (some 8)
  | _ => s

/-- The loop of `cxxExchComp::read_raw` (ExchComp.cxx:140-257): unknown input ends it. -/
def exchCompStep : Line → RS ExchComp → Res (RS ExchComp) :=
  flatStep exchCompOpts exchCompAct .stop

/-- `cxxExchange`. -/
structure Exchange where
  head : Head
  pitzer : Bool
  comps : List ExchComp
  newDef : Bool
  solEq : Bool
  nSolution : Int
  totals : ND
  deriving DecidableEq

/-- `cxxExchange::dump_raw` (Exchange.cxx:128-171). -/
def dumpExchange (rnd : ℚ → ℚ) (x : Exchange) : List Line :=
  [headLine "EXCHANGE_RAW" x.head, optLine "exchange_gammas" [boolTok x.pitzer]]
  ++ x.comps.flatMap (fun c => optLine "component" [.word c.formula] :: dumpExchComp rnd c)
  ++ [optLine "new_def" [.num 0], optLine "solution_equilibria" [.num 0],
      optLine "n_solution" [.num x.nSolution], optLine "totals" []]
  ++ dumpND rnd x.totals

/-- `cxxExchange::vopts` (Exchange.cxx:457-466). -/
def exchangeOpts : List Name :=
  ["pitzer_exchange_gammas", "component", "exchange_gammas", "new_def", "solution_equilibria",
   "n_solution", "totals"].map String.toList

/-- The plain cases of `cxxExchange::read_raw` (Exchange.cxx:211-302). -/
def exchangeAct (n : Nat) (rest : List Tok) (s : RS Exchange) : RS Exchange :=
  match n with
  | 0 => (readBool (fun b x => { x with pitzer := b }) false rest s).seen 0
  | 2 => (readBool (fun b x => { x with pitzer := b }) false rest s).seen 0
  | 3 => readBool (fun b x => { x with newDef := b }) false rest s
  | 4 => readBool (fun b x => { x with solEq := b }) false rest s
  | 5 => readInt (fun i x => { x with nSolution := i }) (-999) rest s
  | 6 => readPair (fun w q x => { x with totals := insert x.totals w q }) rest s
  | _ => s

/-- Default `cxxExchComp` (ExchComp.cxx:31-42) with a formula. -/
def newExchComp (f : Name) : ExchComp := ⟨f, [], 0, 0, [], 0, [], 0⟩

/-- State of the nested component reader: the name on the `-component` line, whether `Find_comp`
found a component, the reader of the component. -/
abbrev ExchIn := (Name × Bool) × RS ExchComp

/-- `cxxExchange::Find_comp` (Exchange.cxx:378-393): the first component whose *totals* hold the
name. -/
def findComp (cs : List ExchComp) (w : Name) : Option ExchComp :=
  cs.find? (fun c => (keys c.totals).contains w)

/-- Start of a component (Exchange.cxx:222-243). -/
def exchangeEnter (n : Nat) (rest : List Tok) (s : RS Exchange) :
    Option (RS Exchange × Option ExchIn) :=
  if n = 1 then
    match rest with
    | .word w :: _ =>
      match findComp s.val.comps w with
      | some c => some (s, some ((w, true), ⟨c, none, [2, 3, 6], 0⟩))
      | none   => some (s, some ((w, false), ⟨newExchComp w, none, [2, 3, 6], 0⟩))
    | _ => some (s.error, none)
  else none

/-- End of a component (Exchange.cxx:243-257): the checks of ExchComp.cxx:258-280, then the
component replaces those of the same name or is appended. -/
def exchangeClose (s : RS Exchange) (i : ExchIn) : RS Exchange :=
  { s with
    val := { s.val with
      comps := if i.1.2 then
          s.val.comps.map (fun c => if lower c.formula = lower i.1.1 then i.2.val else c)
        else s.val.comps ++ [i.2.val] }
    errs := s.errs + i.2.check.errs }

/-- The loop of `cxxExchange::read_raw` (Exchange.cxx:187-305). -/
def exchangeStep : Line → RS Exchange × Option ExchIn → Res (RS Exchange × Option ExchIn) :=
  nestStep
    (outerStep exchangeOpts exchangeAct exchangeEnter (fun s => .stop (s.error, none)))
    (tagStep exchCompStep)
    exchangeClose

/-- `cxxExchange::Sort_comps` (Exchange.cxx:394-411). -/
def sortComps (cs : List ExchComp) : List ExchComp :=
  (cs.foldl (fun m c => insert m c.formula c) []).map Prod.snd

/-- Default `cxxExchange` (Exchange.cxx:30-40). -/
def newExchange (h : Head) : Exchange := ⟨h, true, [], false, false, -999, []⟩

/-- `cxxExchange::read_raw` (Exchange.cxx:172-323) on a new object: the object, the number of
errors and the lines left. -/
def readExchange : List Line → Exchange × Nat × List Line
  | [] => (newExchange ⟨1, 1, []⟩, 1, [])
  | h :: ls =>
    let r := feed exchangeStep ls (⟨newExchange (readHead h), none, [0], 0⟩, none)
    let s := (nestEnd exchangeClose r.1).check
    ({ s.val with comps := sortComps s.val.comps }, s.errs, r.2)

end Verif.Raw
