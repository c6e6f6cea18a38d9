import Verif.Yaml.Props

/-!
# Cases and violations for the YAML files
-/

namespace Verif.Yaml

/-- A module that keeps a list of the calls made; `SetUnitsSolution` with an option out of range
returns an error and is not kept, `StateApply` ends with an exception. -/
def journal (c : Call) (s : List Call) : Option (List Call × IRM) :=
  if c.method = "StateApply" then none
  else if c.method = "SetUnitsSolution" ∧ c.args = [.int 7] then some (s, .invalidArg)
  else some (s ++ [c], .ok)


def rGrid : Rec := ⟨⟨"SetGridCellCount", "SetGridCellCount", [("count", .int)]⟩, [.int 40],
  by decide +kernel, by decide +kernel⟩
def rGrid' : Rec := ⟨⟨"SetGridCellCount", "SetGridCellCount", [("count", .int)]⟩, [.int 20],
  by decide +kernel, by decide +kernel⟩
def rThread : Rec := ⟨⟨"ThreadCount", "ThreadCount", [("nthreads", .int)]⟩, [.int 3],
  by decide +kernel, by decide +kernel⟩
def rMix : Rec := ⟨⟨"InitialPhreeqc2Module", "InitialPhreeqc2Module", [("initial_conditions1",
      .ints), ("initial_conditions2", .ints), ("fraction1", .doubles)]⟩,
  [.ints [1, 2], .ints [3, 4], .doubles [1, 1/2]], by decide +kernel, by decide +kernel⟩
def rOne : Rec := ⟨⟨"InitialPhreeqc2Module", "InitialPhreeqc2Module", [("initial_conditions1",
      .ints)]⟩, [.ints [1, 2]], by decide +kernel, by decide +kernel⟩
def rTime : Rec := ⟨⟨"SetTime", "SetTime", [("time", .double)]⟩, [.double (1/3)],
  by decide +kernel, by decide +kernel⟩
def rLog : Rec := ⟨⟨"LogMessage", "LogMessage", [("str", .string)]⟩, [.string "begin"],
  by decide +kernel, by decide +kernel⟩
def rNth : Rec := ⟨⟨"SetNthSelectedOutput", "SetNthSelectedOutput", [("n", .int)]⟩, [.int 0],
  by decide +kernel, by decide +kernel⟩
def rUnits : Rec := ⟨⟨"SetUnitsSolution", "SetUnitsSolution", [("option", .int)]⟩, [.int 7],
  by decide +kernel, by decide +kernel⟩
def rDump : Rec := ⟨⟨"DumpModule", "DumpModule", [("dump_on", .bool), ("append", .bool)]⟩,
  [.bool true, .bool false], by decide +kernel, by decide +kernel⟩

/-- A recording that meets the hypothesis of `replay_partial`, with both forms of
`InitialPhreeqc2Module` and a `Clear`. -/
example : (∀ r ∈ recorded [.record rLog, .clear, .record rGrid, .record rMix, .record rThread,
      .record rOne, .record rTime], Unknown r = false) ∧
    replay journal (([Use.record rLog, .clear, .record rGrid, .record rMix, .record rThread,
      .record rOne, .record rTime].map Use.op).foldl DocOp.step []) [] =
      ([⟨"InitialPhreeqc2Module", [.ints [1, 2], .ints [3, 4], .doubles [1, 1/2]]⟩,
        ⟨"InitialPhreeqc2Module", [.ints [1, 2]]⟩, ⟨"SetTime", [.double (1/3)]⟩], .ok .ok) := by
  decide +kernel

/-- **C45 violated.** A recorded `LogMessage` stops the initialisation: the calls after it are
not made although none of the recorded calls fails when made directly. -/
theorem replay_violated :
    ∃ rs : List Rec,
      replay journal (rs.map Rec.node) [] ≠
        ((performAll journal (rs.map Rec.call) []).1, .ok .ok) ∧
      (performAll journal (rs.map Rec.call) []).2 = true ∧
      replay journal (rs.map Rec.node) [] = ([], .throw) :=
  ⟨[rLog, rTime], by decide +kernel, by decide +kernel, by decide +kernel⟩

/-- The same for `SetNthSelectedOutput`, after a call that is made. -/
theorem replay_violated_nth :
    replay journal ([rTime, rNth, rOne].map Rec.node) [] = ([rTime.call], .throw) ∧
    performAll journal ([rTime, rNth, rOne].map Rec.call) [] =
      ([rTime.call, rNth.call, rOne.call], true) := by
  decide +kernel

/-- A recording that meets the hypotheses of `counts_partial`. -/
example : values "SetGridCellCount" [rTime, rThread, rOne, rGrid] = [40] ∧
    (values "ThreadCount" [rTime, rThread, rOne, rGrid]).length ≤ 1 := by decide +kernel

/-- **C93 violated** when the count is recorded twice: `GetGridCellCountYAML` gives the first
value, `Initialize` the last one, or the first one if the thread count stands between. -/
theorem counts_violated :
    gridCellCount ([rGrid, rGrid', rThread].map Rec.node) = .ok 40 ∧
    scanCounts ([rGrid, rGrid', rThread].map Rec.node) none none = .ok (some 20, some 3) ∧
    scanCounts ([rGrid, rThread, rGrid'].map Rec.node) none none = .ok (some 40, some 3) := by
  decide +kernel

/-- **C94 violated.** The items of a map have no order in YAML, but exchanging two of them
exchanges the arguments, and with the keyword not first the entry is refused. -/
theorem order_matters :
    ∃ a b c : Node, a.Perm b ∧ a.Perm c ∧ (a.map Prod.fst).Nodup ∧
      readNode a = .ok (some ⟨"DumpModule", [.bool true, .bool false]⟩) ∧
      readNode b = .ok (some ⟨"DumpModule", [.bool false, .bool true]⟩) ∧
      readNode c = .throw :=
  ⟨[("key", .string "DumpModule"), ("dump_on", .bool true), ("append", .bool false)],
   [("key", .string "DumpModule"), ("append", .bool false), ("dump_on", .bool true)],
   [("dump_on", .bool true), ("key", .string "DumpModule"), ("append", .bool false)],
   by decide +kernel, by decide +kernel, by decide +kernel, by decide +kernel,
   by decide +kernel, by decide +kernel⟩

/-- A missing item is read past the end. -/
theorem missing_item_ub :
    readNode [("key", .string "RunFile"), ("workers", .bool true)] = .ub ∧
    readNode [("key", .string "InitialPhreeqc2Module")] = .throw := by decide +kernel

/-- **C95 violated.** A call that returns an error leaves no trace in the value returned. -/
theorem failure_unreported :
    journal rUnits.call [] = some ([], .invalidArg) ∧
    replay journal ([rUnits, rTime].map Rec.node) [] = ([rTime.call], .ok .ok) := by
  decide +kernel

end Verif.Yaml
