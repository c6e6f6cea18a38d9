import Verif.Raw.Parser

/-!
# `SURFACE_RAW`

Model of the writing and reading of surfaces
(`/repo/src/IPhreeqcPhast/IPhreeqc/phreeqcpp/SurfaceComp.cxx`, `SurfaceCharge.cxx`,
`Surface.cxx`).
-/

namespace Verif.Raw

open Verif.OMap Verif.NameDouble

/-- A name as a printed token: nothing if it is empty. -/
def wordTok (n : Name) : List Tok := if n = [] then [] else [.word n]

/-- `cxxSurfaceComp`. -/
structure SurfComp where
  formula : Name
  formulaZ : ℚ
  moles : ℚ
  la : ℚ
  chargeBalance : ℚ
  phaseName : Name
  rateName : Name
  phaseProportion : ℚ
  dw : ℚ
  chargeName : Name
  masterElement : Name
  totals : ND
  deriving DecidableEq

/-- `cxxSurfaceComp::dump_raw` (SurfaceComp.cxx:85-119). -/
def dumpSurfComp (rnd : ℚ → ℚ) (c : SurfComp) : List Line :=
  [optLine "formula_z" [.num (rnd c.formulaZ)], optLine "moles" [.num (rnd c.moles)],
   optLine "la" [.num (rnd c.la)], optLine "charge_balance" [.num (rnd c.chargeBalance)]]
  ++ nameLine "phase_name" c.phaseName ++ nameLine "rate_name" c.rateName
  ++ [optLine "phase_proportion" [.num (rnd c.phaseProportion)], optLine "Dw" [.num (rnd c.dw)],
      optLine "charge_name" (wordTok c.chargeName),
      optLine "master_element" (wordTok c.masterElement), optLine "totals" []]
  ++ dumpND rnd c.totals

/-- `cxxSurfaceComp::vopts` (SurfaceComp.cxx:493-508). -/
def surfCompOpts : List Name :=
  ["formula", "moles", "la", "charge_number", "charge_balance", "phase_name", "rate_name",
   "phase_proportion", "totals", "formula_z", "formula_totals", "dw", "charge_name",
   "master_element"].map String.toList

/-- The cases of `cxxSurfaceComp::read_raw` (SurfaceComp.cxx:163-308). -/
def surfCompAct (n : Nat) (rest : List Tok) (s : RS SurfComp) : RS SurfComp :=
  match n with
  | 1 => (readNum (fun q c => { c with moles := q }) 0 rest s).seen 1
  | 2 => (readNum (fun q c => { c with la := q }) 0 rest s).seen 2
  | 4 => (readNum (fun q c => { c with chargeBalance := q }) 0 rest s).seen 4
  | 5 => readWord (fun w c => { c with phaseName := w }) rest s
  | 6 => readWord (fun w c => { c with rateName := w }) rest s
  | 7 => readNum (fun q c => { c with phaseProportion := q }) 0 rest s
  | 8 => ((readPair (fun w q c => { c with totals := insert c.totals w q }) rest s).seen
      8).setSave (some 8)
  | 9 => (readNum (fun q c => { c with formulaZ := q }) 0 rest s).seen 9
  | 11 => (readNum (fun q c => { c with dw := q }) 0 rest s).seen 11
  | 12 => (readWord (fun w c => { c with chargeName := w }) rest s).seen 12
  | 13 => (readWord (fun w c => { c with masterElement := w }) rest s).seen 13
  | _ => s

/-- The loop of `cxxSurfaceComp::read_raw` (SurfaceComp.cxx:143-312): unknown input ends it. -/
def surfCompStep : Line → RS SurfComp → Res (RS SurfComp) := flatStep surfCompOpts surfCompAct .stop

/-- The members a component has to define (SurfaceComp.cxx:313-365). -/
def surfCompReq : List Nat := [12, 9, 1, 2, 4, 11, 13, 8]

/-- Default `cxxSurfaceComp` (SurfaceComp.cxx:28-42) with a formula. -/
def newSurfComp (n : Name) : SurfComp := ⟨n, 0, 0, 0, 0, [], [], 0, 0, [], [], []⟩

/-- `cxxSurfaceCharge`. `zMap` is the workspace `z_gMCD_map`, which is not written. A value of
`gMap` is `g`, `dg`, `psi_to_z` of a `cxxSurfDL`. -/
structure SurfCharge where
  name : Name
  specificArea : ℚ
  grams : ℚ
  chargeBalance : ℚ
  massWater : ℚ
  fFree : ℚ
  viscosity : ℚ
  laPsi : ℚ
  capacitance0 : ℚ
  capacitance1 : ℚ
  dlTotals : ND
  dlSpecies : SMap Int ℚ
  sigma0 : ℚ
  sigma1 : ℚ
  sigma2 : ℚ
  sigmaddl : ℚ
  gMap : SMap ℚ (ℚ × ℚ × ℚ)
  zMap : SMap ℚ ℚ
  deriving DecidableEq

/-- `cxxSurfaceCharge::dump_raw` (SurfaceCharge.cxx:85-141). -/
def dumpSurfCharge (rnd : ℚ → ℚ) (c : SurfCharge) : List Line :=
  [optLine "specific_area" [.num (rnd c.specificArea)], optLine "grams" [.num (rnd c.grams)],
   optLine "charge_balance" [.num (rnd c.chargeBalance)],
   optLine "mass_water" [.num (rnd c.massWater)], optLine "f_free" [.num (rnd c.fFree)],
   optLine "ddl_viscosity" [.num (rnd c.viscosity)], optLine "la_psi" [.num (rnd c.laPsi)],
   optLine "capacitance0" [.num (rnd c.capacitance0)],
   optLine "capacitance1" [.num (rnd c.capacitance1)], optLine "diffuse_layer_totals" []]
  ++ dumpND rnd c.dlTotals
  ++ (if c.dlSpecies = [] then [] else
      optLine "diffuse_layer_species" [] :: dumpIntMap rnd c.dlSpecies)
  ++ [optLine "sigma0" [.num (rnd c.sigma0)], optLine "sigma1" [.num (rnd c.sigma1)],
      optLine "sigma2" [.num (rnd c.sigma2)], optLine "sigmaddl" [.num (rnd c.sigmaddl)]]
  ++ c.gMap.map (fun p => optLine "g_map"
      [.num (rnd p.1), .num (rnd p.2.1), .num (rnd p.2.2.1), .num (rnd p.2.2.2)])

/-- `cxxSurfaceCharge::vopts` (SurfaceCharge.cxx:595-616). -/
def surfChargeOpts : List Name :=
  ["name", "specific_area", "grams", "charge_balance", "mass_water", "la_psi",
   "diffuse_layer_totals", "la_psi1", "la_psi2", "capacitance0", "capacitance1", "sigma0",
   "sigma1", "sigma2", "sigmaddl", "g_map", "diffuse_layer_species", "f_free",
   "ddl_viscosity"].map String.toList

/-- The charge being read and `g_map_first`. -/
abbrev ChargeRead := SurfCharge × Bool

/-- `-g_map` (SurfaceCharge.cxx:324-350): the first one empties the map; numbers that are missing
are left at zero. -/
def readG (rest : List Tok) (c : ChargeRead) : ChargeRead :=
  let m := if c.2 then [] else c.1.gMap
  match takeNums rest with
  | z :: g :: dg :: psi :: _ => ({ c.1 with gMap := insert m z (g, dg, psi) }, false)
  | [z, g, dg] => ({ c.1 with gMap := insert m z (g, dg, 0) }, false)
  | [z, g] => ({ c.1 with gMap := insert m z (g, 0, 0) }, false)
  | [z] => ({ c.1 with gMap := insert m z (0, 0, 0) }, false)
  | [] => ({ c.1 with gMap := m }, false)

/-- The cases of `cxxSurfaceCharge::read_raw` (SurfaceCharge.cxx:185-393). -/
def surfChargeAct (n : Nat) (rest : List Tok) (s : RS ChargeRead) : RS ChargeRead :=
  match n with
  | 1 => (readNum (fun q c => ({ c.1 with specificArea := q }, c.2)) 0 rest s).seen 1
  | 2 => (readNum (fun q c => ({ c.1 with grams := q }, c.2)) 0 rest s).seen 2
  | 3 => (readNum (fun q c => ({ c.1 with chargeBalance := q }, c.2)) 0 rest s).seen 3
  | 4 => (readNum (fun q c => ({ c.1 with massWater := q }, c.2)) 0 rest s).seen 4
  | 5 => (readNum (fun q c => ({ c.1 with laPsi := q }, c.2)) 0 rest s).seen 5
  | 6 => (readPair (fun w q c => ({ c.1 with dlTotals := insert c.1.dlTotals w q }, c.2)) rest
      s).setSave (some 6)
  | 9 => (readNum (fun q c => ({ c.1 with capacitance0 := q }, c.2)) 0 rest s).seen 9
  | 10 => (readNum (fun q c => ({ c.1 with capacitance1 := q }, c.2)) 0 rest s).seen 10
  | 11 => readNum (fun q c => ({ c.1 with sigma0 := q }, c.2)) 0 rest s
  | 12 => readNum (fun q c => ({ c.1 with sigma1 := q }, c.2)) 0 rest s
  | 13 => readNum (fun q c => ({ c.1 with sigma2 := q }, c.2)) 0 rest s
  | 14 => readNum (fun q c => ({ c.1 with sigmaddl := q }, c.2)) 0 rest s
  | 15 => { s with val := readG rest s.val }
  | 16 => (readIntPair (fun i q c => ({ c.1 with dlSpecies := insert c.1.dlSpecies i q }, c.2)) rest
      s).setSave (some 16)
  | 17 => readNum (fun q c => ({ c.1 with fFree := q }, c.2)) 0 rest s
  | 18 => readNum (fun q c => ({ c.1 with viscosity := q }, c.2)) 1 rest s
  | _ => s

/-- The loop of `cxxSurfaceCharge::read_raw` (SurfaceCharge.cxx:165-398): unknown input ends it. -/
def surfChargeStep : Line → RS ChargeRead → Res (RS ChargeRead) :=
  flatStep surfChargeOpts surfChargeAct .stop

/-- The members a charge has to define (SurfaceCharge.cxx:399-445). -/
def surfChargeReq : List Nat := [1, 2, 3, 4, 5, 9, 10]

/-- Default `cxxSurfaceCharge` (SurfaceCharge.cxx:28-46) with a name. -/
def newSurfCharge (n : Name) : SurfCharge :=
  ⟨n, 0, 0, 0, 0, 0, 0, 0, 1, 5, [], [], 0, 0, 0, 0, [], []⟩

/-- `cxxSurface`. The enumerations are given by their numbers. -/
structure Surface where
  head : Head
  type : Int
  dlType : Int
  onlyCounterIons : Bool
  correctD : Bool
  thickness : ℚ
  debyeLengths : ℚ
  viscosity : ℚ
  limit : ℚ
  comps : List SurfComp
  charges : List SurfCharge
  newDef : Bool
  tidied : Bool
  sitesUnits : Int
  solEq : Bool
  nSolution : Int
  transport : Bool
  totals : ND
  calcViscosity : Bool
  deriving DecidableEq

/-- `cxxSurface::dump_raw` (Surface.cxx:110-181): `calc_DDL_viscosity` is not written. -/
def dumpSurface (rnd : ℚ → ℚ) (x : Surface) : List Line :=
  [headLine "SURFACE_RAW" x.head, optLine "type" [.num x.type], optLine "dl_type" [.num x.dlType],
   optLine "only_counter_ions" [boolTok x.onlyCounterIons], optLine "correct_D" [boolTok x.correctD],
   optLine "thickness" [.num (rnd x.thickness)],
   optLine "debye_lengths" [.num (rnd x.debyeLengths)],
   optLine "DDL_viscosity" [.num (rnd x.viscosity)], optLine "DDL_limit" [.num (rnd x.limit)]]
  ++ x.comps.flatMap (fun c => optLine "component" [.word c.formula] :: dumpSurfComp rnd c)
  ++ x.charges.flatMap (fun c => optLine "charge_component" [.word c.name] :: dumpSurfCharge rnd c)
  ++ [optLine "new_def" [boolTok x.newDef], optLine "tidied" [boolTok x.tidied],
      optLine "sites_units" [.num x.sitesUnits], optLine "solution_equilibria" [boolTok x.solEq],
      optLine "n_solution" [.num x.nSolution], optLine "transport" [boolTok x.transport],
      optLine "totals" []]
  ++ dumpND rnd x.totals

/-- `cxxSurface::vopts` (Surface.cxx:815-836); `"type "` is written there with a blank. -/
def surfaceOpts : List Name :=
  ["diffuse_layer", "edl", "only_counter_ions", "donnan", "thickness", "component",
   "charge_component", "type ", "dl_type", "sites_units", "debye_lengths", "ddl_viscosity",
   "ddl_limit", "transport", "new_def", "solution_equilibria", "n_solution", "totals", "tidied",
   "correct_d"].map String.toList

/-- The plain cases of `cxxSurface::read_raw` (Surface.cxx:234-273, 349-488). `-totals` does not
set `opt_save`; there is none. -/
def surfaceAct (n : Nat) (rest : List Tok) (s : RS Surface) : RS Surface :=
  match n with
  | 0 => s.error
  | 1 => s.error
  | 2 => (readBool (fun b x => { x with onlyCounterIons := b }) false rest s).seen 2
  | 3 => s.error
  | 4 => (readNum (fun q x => { x with thickness := q }) 0 rest s).seen 4
  | 7 => (readInt (fun i x => { x with type := i }) 0 rest s).seen 7
  | 8 => (readInt (fun i x => { x with dlType := i }) 0 rest s).seen 8
  | 9 => (readInt (fun i x => { x with sitesUnits := i }) 0 rest s).seen 9
  | 10 => (readNum (fun q x => { x with debyeLengths := q }) 0 rest s).seen 10
  | 11 => (readNum (fun q x => { x with viscosity := q }) 1 rest s).seen 11
  | 12 => (readNum (fun q x => { x with limit := q }) 0 rest s).seen 12
  | 13 => (readBool (fun b x => { x with transport := b }) false rest s).seen 13
  | 14 => readBool (fun b x => { x with newDef := b }) false rest s
  | 15 => readBool (fun b x => { x with solEq := b }) false rest s
  | 16 => readInt (fun i x => { x with nSolution := i }) (-999) rest s
  | 17 => readPair (fun w q x => { x with totals := insert x.totals w q }) rest s
  | 18 => readBool (fun b x => { x with tidied := b }) false rest s
  | 19 => readBool (fun b x => { x with correctD := b }) false rest s
  | _ => s

/-- State of the nested readers: the name on the line and whether it was found, with the reader of
the component or of the charge. -/
abbrev SurfIn := ((Name × Bool) × RS SurfComp) ⊕ ((Name × Bool) × RS ChargeRead)

/-- One turn of whichever nested reader is at work. -/
def sumStep {κ μ : Type} (f : Line → κ → Res κ) (g : Line → μ → Res μ) (l : Line) :
    κ ⊕ μ → Res (κ ⊕ μ)
  | .inl a =>
    match f l a with
    | .go a'   => .go (.inl a')
    | .stop a' => .stop (.inl a')
  | .inr b =>
    match g l b with
    | .go b'   => .go (.inr b')
    | .stop b' => .stop (.inr b')

/-- `cxxSurface::Find_comp` (Surface.cxx:663-672). -/
def findSurfComp (cs : List SurfComp) (w : Name) : Option SurfComp :=
  cs.find? (fun c => lower w == lower c.formula)

/-- `cxxSurface::Find_charge` (Surface.cxx:674-683). -/
def findSurfCharge (cs : List SurfCharge) (w : Name) : Option SurfCharge :=
  cs.find? (fun c => lower w == lower c.name)

/-- Start of a component or charge (Surface.cxx:274-291, 311-328). Without a name after
`-charge_component` the code treats the same line again without end (`useLastLine`, line 347);
here an error is counted and the next line is read. `dump_raw` writes the name. -/
def surfaceEnter (n : Nat) (rest : List Tok) (s : RS Surface) :
    Option (RS Surface × Option SurfIn) :=
  if n = 5 then
    match rest with
    | .word w :: _ =>
      match findSurfComp s.val.comps w with
      | some c => some (s, some (.inl ((w, true), ⟨c, none, surfCompReq, 0⟩)))
      | none   => some (s, some (.inl ((w, false), ⟨newSurfComp w, none, surfCompReq, 0⟩)))
    | _ => some (s.error, none)
  else if n = 6 then
    match rest with
    | .word w :: _ =>
      match findSurfCharge s.val.charges w with
      | some c => some (s, some (.inr ((w, true), ⟨(c, true), none, surfChargeReq, 0⟩)))
      | none   => some (s, some (.inr ((w, false), ⟨(newSurfCharge w, true), none, surfChargeReq, 0⟩)))
    | _ => some (s.error, none)
  else none

/-- End of a component or charge (Surface.cxx:292-308, 329-345). -/
def surfaceClose (s : RS Surface) : SurfIn → RS Surface
  | .inl i =>
    { s with
      val := { s.val with
        comps := if i.1.2 then
            s.val.comps.map (fun c => if lower c.formula = lower i.1.1 then i.2.val else c)
          else s.val.comps ++ [i.2.val] }
      errs := s.errs + i.2.check.errs }
  | .inr i =>
    { s with
      val := { s.val with
        charges := if i.1.2 then
            s.val.charges.map (fun c => if lower c.name = lower i.1.1 then i.2.val.1 else c)
          else s.val.charges ++ [i.2.val.1] }
      errs := s.errs + i.2.check.errs }

/-- The loop of `cxxSurface::read_raw` (Surface.cxx:208-492): unknown input is reported and ends
it. -/
def surfaceStep : Line → RS Surface × Option SurfIn → Res (RS Surface × Option SurfIn) :=
  nestStep
    (outerStep surfaceOpts surfaceAct surfaceEnter (fun s => .stop (s.error, none)))
    (sumStep (tagStep surfCompStep) (tagStep surfChargeStep))
    surfaceClose

/-- Order by a name through a map, as in `cxxSurface::Sort_comps` (Surface.cxx:694-727). -/
def sortBy {ν : Type} (key : ν → Name) (cs : List ν) : List ν :=
  (cs.foldl (fun m c => insert m (key c) c) []).map Prod.snd

/-- Default `cxxSurface` (Surface.cxx:27-48); `DDL` is 2, `NO_DL` 0, `SITES_ABSOLUTE` 0
(Surface.h:19-24). The reader sets `tidied` (Surface.cxx:195). -/
def newSurface (h : Head) : Surface :=
  ⟨h, 2, 0, false, false, 1/100000000, 0, 1, 4/5, [], [], false, true, 0, false, -999, false, [],
    false⟩

/-- `cxxSurface::read_raw` (Surface.cxx:183-560) on a new object: the object, the number of errors
and the lines left. -/
def readSurface : List Line → Surface × Nat × List Line
  | [] => (newSurface ⟨1, 1, []⟩, 1, [])
  | h :: ls =>
    let r := feed surfaceStep ls
      (⟨newSurface (readHead h), none, [2, 4, 7, 8, 9, 10, 11, 12, 13], 0⟩, none)
    let s := (nestEnd surfaceClose r.1).check
    ({ s.val with
        comps := sortBy SurfComp.formula s.val.comps
        charges := sortBy SurfCharge.name s.val.charges }, s.errs, r.2)

end Verif.Raw
