import Verif.Base

/-!
# Strings handed to C and Fortran callers

Model of the functions that write names and messages into a buffer of the caller:
`/repo/src/RM_interface_C.cpp`, `/repo/src/RM_interface_F.cpp` and `/repo/src/RM_interface.F90`.
The buffer is a list of characters whose length is the memory the caller owns; writing outside it
is undefined. `/repo/src/BMI_interface_C.cpp` repeats the C functions inside `#ifdef SKIP` (lines
27-701) and is not compiled.
-/

namespace Verif.FString

abbrev Str := List Char

/-- The character that ends a C string. -/
def nul : Char := Char.ofNat 0

/-- What `s.c_str()` shows: the characters before the first NUL. -/
def cstr (s : Str) : Str := s.takeWhile (· ≠ nul)

/-- Writing characters into a buffer from a position on. -/
def store (buf : Str) (p : Nat) (cs : Str) : Out Str :=
  if p + cs.length ≤ buf.length then .ok (buf.take p ++ cs ++ buf.drop (p + cs.length)) else .ub

/-- Conversion of an `int` to `size_t`. -/
def toSize (l : Int) : Nat := (if l < 0 then 2 ^ 64 + l else l).toNat

/-- `rmpadfstring` of the C interface, RM_interface_C.cpp:15-37. -/
def padC (buf src : Str) (len : Int) : Out (Str × IRM) :=
  if len = 0 then .ok (buf, .invalidArg)
  else
    let l := toSize len - 1
    let str := cstr src
    if str.length < l then do
      let b ← store buf 0 str
      let b ← store b str.length [nul]
      .ok (b, .ok)
    else do
      let b ← store buf 0 (str.take l)
      let b ← store b l [nul]
      .ok (b, .invalidArg)

/-- The characters written by `rmpadfstring` of the Fortran interface,
RM_interface_F.cpp:18-28 (the same in BMI_interface_F.cpp:16-26). -/
def padChars : Nat → Str → Str
  | 0, _ => []
  | n + 1, [] => ' ' :: padChars n []
  | n + 1, c :: cs => if c = nul then ' ' :: padChars n [] else c :: padChars n cs

def padF (buf src : Str) (len : Nat) : Out Str := store buf 0 (padChars len src)

/-- The characters written by `strncpy`. -/
def copyChars : Nat → Str → Str
  | 0, _ => []
  | n + 1, [] => nul :: copyChars n []
  | n + 1, c :: cs => if c = nul then nul :: copyChars n [] else c :: copyChars n cs

def strncpy (buf src : Str) (n : Nat) : Out Str :=
  if n ≤ buf.length then store buf 0 (copyChars n src) else .ub

/-! ## C functions -/

/-- The functions of the C interface that return a name from a list, RM_interface_C.cpp:915-1295
and 1902-1920. -/
inductive CFun
  | component | exchangeSpecies | exchangeName | surfaceSpecies | surfaceType | surfaceName
  | equilibriumPhases | gasComponents | kineticReactions | ssComponents | ssName | si | species
  deriving DecidableEq

/-- Their checks, lines 924, 975, 997, 1033, 1055, 1078, 1114, 1150, 1186, 1228, 1250, 1285 and
1911. `count` is the length of the list. -/
def CFun.accepts (f : CFun) (count : Nat) (num l1 : Int) : Bool :=
  match f with
  | .component => decide (0 < l1 ∧ 0 ≤ num ∧ num < count)
  | .species => decide (0 ≤ num ∧ num < count)
  | _ => decide (0 < l1 ∧ 0 ≤ num ∧ num ≤ count)

/-- `RM_GetComponent(id, num, name, l1)` and the others. Indexing a vector outside its size is
undefined. -/
def getC (f : CFun) (names : List Str) (num : Int) (buf : Str) (l1 : Int) : Out (Str × IRM) :=
  if f.accepts names.length num l1 then
    match names[num.toNat]? with
    | some s => do
      let b ← strncpy buf s (toSize l1)
      .ok (b, .ok)
    | none => .ub
  else .ok (buf, .invalidArg)

/-- `RM_GetErrorString`, RM_interface_C.cpp:1402-1413. -/
def getErrorC (err buf : Str) (l : Int) : Out (Str × IRM) := do
  let b ← strncpy buf err (toSize l)
  .ok (b, .ok)

/-! ## Fortran functions -/

/-- `RMF_GetComponent` and the others, RM_interface_F.cpp:247-268 (checks at lines 258, 324, 346,
382, 404, 427, 463, 499, 535, 571, 593, 628): numbers from 1, blank padding. `RMF_GetSpeciesName`
(1300-1316) and `RMF_GetSelectedOutputHeading` (1154-1170) do not check the length; here it is
positive. -/
def getF (names : List Str) (num : Int) (buf : Str) (l1 : Int) : Out (Str × IRM) :=
  if 0 < l1 ∧ 0 < num ∧ num ≤ names.length then
    match names[(num - 1).toNat]? with
    | some s => do
      let b ← padF buf s (toSize l1)
      .ok (b, .ok)
    | none => .ub
  else .ok (buf, .invalidArg)

/-- Fortran `trim`. -/
def trimR (s : Str) : Str := (s.reverse.dropWhile (· = ' ')).reverse

/-- Assignment to a character variable of length `k`. -/
def assign (k : Nat) (s : Str) : Str := s.take k ++ List.replicate (k - s.length) ' '

/-- The first loop of `RM_GetComponents` and the others, RM_interface.F90:824-829, 1153-1158:
the longest name, and the status of the last call. `scratch` is the local variable
`character(1024)` or `character(2048)`, undefined at the beginning. -/
def pass1 (names : List Str) : List Nat → Str → Nat × Option IRM →
    Out (Nat × Option IRM)
  | [], _, r => .ok r
  | i :: is, scratch, r => do
    let (b, s) ← getF names (i + 1) scratch scratch.length
    let l := (trimR b).length
    pass1 names is b (if l > r.1 then l else r.1, some s)

/-- The second loop of most functions, RM_interface.F90:1161-1163: directly into the result. `init`
is the undefined content of a new array element. -/
def pass2 (names : List Str) (init : Str) : List Nat → Option IRM → Out (List Str × Option IRM)
  | [], st => .ok ([], st)
  | i :: is, _ => do
    let (b, s) ← getF names (i + 1) init init.length
    let (bs, st) ← pass2 names init is (some s)
    .ok (b :: bs, st)

/-- The second loop of `RM_GetComponents` and `RM_GetSelectedOutputHeadings`,
RM_interface.F90:832-835, 2667-2670: through the local variable. -/
def pass2Head (names : List Str) (size : Nat) : List Nat → Str → Option IRM →
    Out (List Str × Option IRM)
  | [], _, st => .ok ([], st)
  | i :: is, scratch, _ => do
    let (b, s) ← getF names (i + 1) scratch scratch.length
    let (bs, st) ← pass2Head names size is b (some s)
    .ok (assign size (trimR b) :: bs, st)

/-- `RM_GetEquilibriumPhasesNames` and eleven others, RM_interface.F90:1145-1166 (1294, 1398, 1543,
2088, 2799, 2903, 2972, 3363, 3576, 3689, 3757). The status is `none` when the variable `status`
was never set. `junk k` is the content of new memory of length `k`. -/
def getNames (junk : Nat → Str) (names : List Str) : Out (List Str × Option IRM) := do
  let is := List.range names.length
  let r ← pass1 names is (junk 2048) (0, none)
  pass2 names (junk r.1) is r.2

/-- `RM_GetComponents` and `RM_GetSelectedOutputHeadings`, RM_interface.F90:816-838, 2651-2673. -/
def getNamesHead (junk : Nat → Str) (names : List Str) : Out (List Str × Option IRM) := do
  let is := List.range names.length
  let r ← pass1 names is (junk 1024) (0, none)
  pass2Head names r.1 is (junk 1024) r.2

/-- `RMF_GetFilePrefix`, RM_interface_F.cpp:809-822: the length is changed to that of the prefix. -/
def getPrefixF (filePrefix buf : Str) (l : Int) : Out (Str × Int × IRM) := do
  let b ← padF buf filePrefix (toSize l)
  .ok (b, filePrefix.length, .ok)

/-- `RM_GetFilePrefix`, RM_interface.F90:1456-1478. -/
def getPrefix (junk : Nat → Str) (filePrefix : Str) : Out (Str × IRM) := do
  let (_, l, _) ← getPrefixF filePrefix (junk 10) 10
  let (b, _, s) ← getPrefixF filePrefix (junk l.toNat) l
  .ok (b, s)

/-- `RM_GetErrorString`, RM_interface.F90:1208-1228 and RM_interface_F.cpp:781-792. -/
def getErrorF (junk : Nat → Str) (err : Str) : Out (Str × IRM) := do
  let b ← padF (junk (err.length + 1)) err (err.length + 1)
  .ok (b, .ok)

/-- A Fortran string as the library sees it: `trim(s)//C_NULL_CHAR`, for example
RM_interface.F90:5324. -/
def arrives (s : Str) : Str := cstr (trimR s ++ [nul])

/-! ## BMI names of the C interface -/

/-- `RM_BmiGetInputVarName(id, i, name, l)`, RM_interface_C.cpp:196-208 (and 232-244, 268-280):
the index is not checked. -/
def bmiName (names : List Str) (i : Int) (buf : Str) (l : Int) : Out (Str × IRM) :=
  if i < 0 then .ub
  else
    match names[i.toNat]? with
    | some s => padC buf s l
    | none => .ub

end Verif.FString
