import Verif.Yaml.Model
import Mathlib.Tactic.SplitIfs

/-!
# Replaying a recorded sequence of calls (C45, C93, C94, C95)
-/

namespace Verif.Yaml

/-! ## Specification -/

/-- A call that can be recorded: a method of `YAMLPhreeqcRM` with arguments of its types. -/
structure Rec where
  w    : Writer
  args : List Arg
  mem  : w ∈ writers
  typed : args.map Arg.ty = w.fields.map Prod.snd

/-- The call of the module it stands for. -/
def Rec.call (r : Rec) : Call := ⟨r.w.method, r.args⟩

/-- What is appended to the document. -/
def Rec.node (r : Rec) : Node := r.w.node r.args

/-- Making the calls directly, one after the other, up to the first exception. -/
def performAll {σ : Type} (perform : Call → σ → Option (σ × IRM)) : List Call → σ → σ × Bool
  | [], s => (s, true)
  | c :: cs, s =>
    match perform c s with
    | some (s', _) => performAll perform cs s'
    | none => (s, false)

/-- The two items that describe how the module is made; they are not calls of the module. -/
def Setup (r : Rec) : Bool := r.w.method = "SetGridCellCount" ∨ r.w.method = "ThreadCount"

/-- The two methods whose keyword `InitializeYAML` does not know. -/
def Unknown (r : Rec) : Bool := r.w.method = "LogMessage" ∨ r.w.method = "SetNthSelectedOutput"

/-! ## Reading back one entry -/

/-- The branch chosen for an entry of `n` items with keyword `kw`. -/
def branch (kw : String) (n : Nat) : Option Reader :=
  readers.find? (fun r => r.keyword = kw ∧ (r.size = none ∨ r.size = some n))

/-- The methods with the properties needed, checked one by one. -/
theorem table : ∀ w ∈ writers,
    (if w.method = "LogMessage" ∨ w.method = "SetNthSelectedOutput" then
      (branch w.key (w.fields.length + 1)).isNone = true
    else if w.method = "SetGridCellCount" ∨ w.method = "ThreadCount" then
      (branch w.key (w.fields.length + 1)).any (fun r => r.method = none ∧ r.types = []) = true
    else (branch w.key (w.fields.length + 1)).any
      (fun r => r.method = some w.method ∧ r.types = w.fields.map Prod.snd) = true) := by
  decide +kernel

theorem as_self (a : Arg) : a.as a.ty = .ok a := by cases a <;> rfl

theorem decode_zip : ∀ (names : List String) (args : List Arg), names.length = args.length →
    decode (args.map Arg.ty) (names.zip args) = .ok args
  | [], [], _ => rfl
  | n :: ns, a :: as, h => by
    have ih := decode_zip ns as (by simpa using h)
    simp [decode, as_self, ih]

theorem Rec.length (r : Rec) : (r.w.fields.map Prod.fst).length = r.args.length := by
  have := congrArg List.length r.typed
  simpa using this.symm

theorem Rec.node_length (r : Rec) : r.node.length = r.w.fields.length + 1 := by
  have := r.length
  simp [Rec.node, Writer.node] at *
  omega

/-- Reading an entry in terms of `branch`. -/
theorem readNode_branch (k kw : String) (rest : Node) :
    readNode ((k, .string kw) :: rest) =
      match branch kw (rest.length + 1) with
      | none => .throw
      | some r => decode r.types rest >>= fun args =>
        Out.ok (r.method.map (fun m => Call.mk m args)) := by
  simp only [readNode, branch, List.length_cons]
  cases List.find? _ readers <;> rfl

theorem readNode_rec (r : Rec) :
    readNode r.node =
      if Unknown r then .throw else if Setup r then .ok none else .ok (some r.call) := by
  have hl := r.length
  have ht := table r.w r.mem
  have hn : ((r.w.fields.map Prod.fst).zip r.args).length + 1 = r.w.fields.length + 1 := by
    have := r.node_length
    simpa [Rec.node, Writer.node] using this
  rw [Rec.node, Writer.node, readNode_branch, hn]
  by_cases hu : r.w.method = "LogMessage" ∨ r.w.method = "SetNthSelectedOutput"
  · rw [if_pos hu] at ht
    rw [if_pos (by simpa [Unknown] using hu)]
    rw [Option.isNone_iff_eq_none] at ht
    rw [ht]
  · rw [if_neg hu] at ht
    rw [if_neg (by simpa [Unknown] using hu)]
    by_cases hs : r.w.method = "SetGridCellCount" ∨ r.w.method = "ThreadCount"
    · rw [if_pos hs] at ht
      rw [if_pos (by simpa [Setup] using hs)]
      rw [Option.any_eq_true] at ht
      obtain ⟨b, hb, h⟩ := ht
      rw [hb]
      simp only [decide_eq_true_eq] at h
      simp [h.1, h.2, decode]
    · rw [if_neg hs] at ht
      rw [if_neg (by simpa [Setup] using hs)]
      rw [Option.any_eq_true] at ht
      obtain ⟨b, hb, h⟩ := ht
      rw [hb]
      simp only [decide_eq_true_eq] at h
      simp [h.1, h.2, ← r.typed, decode_zip _ _ hl, Rec.call]

/-! ## The document -/

/-- A sequence of uses of `YAMLPhreeqcRM`. -/
inductive Use
  | record (r : Rec)
  | clear

def Use.op : Use → DocOp
  | .record r => .record r.w r.args
  | .clear => .clear

/-- What is recorded at the end: everything since the last `Clear`. -/
def recorded (us : List Use) : List Rec :=
  us.foldl (fun acc u => match u with | .record r => acc ++ [r] | .clear => []) []

theorem doc_eq (us : List Use) :
    (us.map Use.op).foldl DocOp.step [] = (recorded us).map Rec.node := by
  suffices h : ∀ (us : List Use) (acc : List Rec),
      (us.map Use.op).foldl DocOp.step (acc.map Rec.node) =
        (us.foldl (fun acc u => match u with | .record r => acc ++ [r] | .clear => []) acc).map
          Rec.node from h us []
  intro us
  induction us with
  | nil => intro acc; rfl
  | cons u us ih =>
    intro acc
    cases u with
    | record r =>
      have := ih (acc ++ [r])
      simpa [Use.op, DocOp.step, Rec.node] using this
    | clear => simpa [Use.op, DocOp.step] using ih []

/-! ## C45 -/

/-- **C45 (partial).** Whatever the module does, initialising it from a document recorded with
`YAMLPhreeqcRM` makes exactly the recorded calls in order with the same arguments, up to the
first one that ends with an exception. Not covered: recordings with `YAMLLogMessage` or
`YAMLSetNthSelectedOutput` (see `replay_unknown`). -/
theorem replay_partial {σ : Type} (perform : Call → σ → Option (σ × IRM)) (us : List Use) (s : σ)
    (hk : ∀ r ∈ recorded us, Unknown r = false) :
    replay perform ((us.map Use.op).foldl DocOp.step []) s =
      (let p := performAll perform
          (((recorded us).filter (fun r => !Setup r)).map Rec.call) s
       (p.1, if p.2 then .ok .ok else .throw)) := by
  rw [doc_eq]
  generalize recorded us = rs at hk ⊢
  induction rs generalizing s with
  | nil => rfl
  | cons r rs ih =>
    have hr := hk r (by simp)
    have ih := fun s => ih s (fun q hq => hk q (by simp [hq]))
    rw [List.map_cons, replay, readNode_rec, hr]
    by_cases hs : Setup r
    · simp only [hs, Bool.false_eq_true, if_false, if_true]
      rw [ih s]
      simp [hs]
    · simp only [hs, Bool.false_eq_true, if_false]
      rw [List.filter_cons_of_pos (by simp [hs]), List.map_cons, performAll]
      cases hp : perform r.call s with
      | none => simp
      | some v => obtain ⟨s', c⟩ := v; exact ih s'

/-- With one of the two unknown calls the calls before it are made and then an exception is
thrown, although the same call made directly may succeed. -/
theorem replay_unknown {σ : Type} (perform : Call → σ → Option (σ × IRM)) (a : List Rec)
    (u : Rec) (b : List Rec) (s : σ) (ha : ∀ r ∈ a, Unknown r = false) (hu : Unknown u) :
    replay perform ((a ++ u :: b).map Rec.node) s =
      ((performAll perform ((a.filter (fun r => !Setup r)).map Rec.call) s).1, .throw) := by
  induction a generalizing s with
  | nil => simp [replay, readNode_rec, hu, performAll]
  | cons r rs ih =>
    have hr := ha r (by simp)
    have ih := fun s => ih s (fun q hq => ha q (by simp [hq]))
    rw [List.cons_append, List.map_cons, replay, readNode_rec, hr]
    by_cases hs : Setup r
    · simp only [hs, Bool.false_eq_true, if_false, if_true]
      rw [ih s]
      simp [hs]
    · simp only [hs, Bool.false_eq_true, if_false]
      rw [List.filter_cons_of_pos (by simp [hs]), List.map_cons, performAll]
      cases hp : perform r.call s with
      | none => simp
      | some v => obtain ⟨s', c⟩ := v; exact ih s'

/-! ## C93: the size of the module -/

/-- The values recorded with a given method that takes one integer. -/
def values (m : String) (rs : List Rec) : List Int :=
  rs.filterMap (fun r => if r.w.method = m then
    (match r.args with | [.int i] => some i | _ => none) else none)

theorem setup_table : ∀ w ∈ writers,
    (w.key = "SetGridCellCount" ↔ w.method = "SetGridCellCount") ∧
    (w.key = "ThreadCount" ↔ w.method = "ThreadCount") ∧
    ((w.method = "SetGridCellCount" ∨ w.method = "ThreadCount") →
      w.fields.map Prod.snd = [.int]) := by
  decide +kernel

theorem Rec.setup (r : Rec)
    (h : r.w.method = "SetGridCellCount" ∨ r.w.method = "ThreadCount") :
    ∃ i f, r.args = [.int i] ∧ r.node = [("key", .string r.w.key), (f, .int i)] := by
  have ht := (setup_table r.w r.mem).2.2 h
  have h1 := r.typed
  rw [ht] at h1
  match ha : r.args with
  | [] => simp [ha] at h1
  | [a] =>
    match a with
    | .int i =>
      match hf : r.w.fields with
      | [] => simp [hf] at ht
      | [f] => exact ⟨i, f.1, rfl, by simp [Rec.node, Writer.node, hf, ha]⟩
      | _ :: _ :: _ => simp [hf] at ht
    | .bool _ | .double _ | .string _ | .ints _ | .doubles _ => simp [ha, Arg.ty] at h1
  | _ :: _ :: _ => simp [ha] at h1

theorem gridCellCount_eq (rs : List Rec) :
    gridCellCount (rs.map Rec.node) = .ok ((values "SetGridCellCount" rs).headD 0) := by
  induction rs with
  | nil => rfl
  | cons r rs ih =>
    have ht := setup_table r.w r.mem
    by_cases h : r.w.method = "SetGridCellCount"
    · obtain ⟨i, f, ha, hn⟩ := r.setup (.inl h)
      simp [hn, gridCellCount, ht.1.mpr h, values, h, ha]
    · have hk : r.w.key ≠ "SetGridCellCount" := fun e => h (ht.1.mp e)
      have e : gridCellCount (r.node :: rs.map Rec.node) = gridCellCount (rs.map Rec.node) := by
        simp only [Rec.node, Writer.node, gridCellCount, if_neg hk]
      rw [List.map_cons, e, ih]
      simp [values, h]

theorem scan_eq (rs : List Rec) : ∀ (n t : Option Int),
    (values "SetGridCellCount" rs).length + n.toList.length ≤ 1 →
    (values "ThreadCount" rs).length + t.toList.length ≤ 1 →
    scanCounts (rs.map Rec.node) n t =
      .ok (n.or (values "SetGridCellCount" rs).head?, t.or (values "ThreadCount" rs).head?) := by
  induction rs with
  | nil => intro n t _ _; simp [scanCounts, values]
  | cons r rs ih =>
    intro n t hn ht
    have tb := setup_table r.w r.mem
    by_cases h : r.w.method = "SetGridCellCount"
    · obtain ⟨i, f, ha, hnode⟩ := r.setup (.inl h)
      have hT : r.w.method ≠ "ThreadCount" := by rw [h]; decide
      have e1 : values "SetGridCellCount" (r :: rs) = i :: values "SetGridCellCount" rs := by
        simp [values, h, ha]
      have e2 : values "ThreadCount" (r :: rs) = values "ThreadCount" rs := by
        simp [values, hT]
      rw [e1] at hn
      rw [e2] at ht
      have hn0 : n = none := by cases n with
        | none => rfl
        | some _ => simp at hn
      subst hn0
      rw [e1, e2, List.map_cons, hnode, scanCounts, if_pos (tb.1.mpr h)]
      simp only [Option.none_or, List.head?_cons]
      cases t with
      | none =>
        rw [Option.isSome_none, if_neg (by simp), ih _ _ (by simpa using hn) ht]
        simp
      | some j => simp
    · by_cases h' : r.w.method = "ThreadCount"
      · obtain ⟨i, f, ha, hnode⟩ := r.setup (.inr h')
        have e1 : values "SetGridCellCount" (r :: rs) = values "SetGridCellCount" rs := by
          simp [values, h]
        have e2 : values "ThreadCount" (r :: rs) = i :: values "ThreadCount" rs := by
          simp [values, h', ha]
        rw [e1] at hn
        rw [e2] at ht
        have ht0 : t = none := by cases t with
          | none => rfl
          | some _ => simp at ht
        subst ht0
        have hk : r.w.key ≠ "SetGridCellCount" := fun e => h (tb.1.mp e)
        rw [e1, e2, List.map_cons, hnode, scanCounts, if_neg hk, if_pos (tb.2.1.mpr h')]
        simp only [Option.none_or, List.head?_cons]
        cases n with
        | none =>
          rw [Option.isSome_none, if_neg (by simp), ih _ _ hn (by simpa using ht)]
          simp
        | some j => simp
      · have hk : r.w.key ≠ "SetGridCellCount" := fun e => h (tb.1.mp e)
        have hk' : r.w.key ≠ "ThreadCount" := fun e => h' (tb.2.1.mp e)
        have e1 : values "SetGridCellCount" (r :: rs) = values "SetGridCellCount" rs := by
          simp [values, h]
        have e2 : values "ThreadCount" (r :: rs) = values "ThreadCount" rs := by
          simp [values, h']
        rw [e1] at hn
        rw [e2] at ht
        have e : scanCounts (r.node :: rs.map Rec.node) n t =
            scanCounts (rs.map Rec.node) n t := by
          simp only [Rec.node, Writer.node, scanCounts, if_neg hk, if_neg hk']
        rw [e1, e2, List.map_cons, e]
        exact ih n t hn ht

/-- **C93 (partial).** If the grid cell count is recorded once and the thread count at most once,
at any places of the document, then `Initialize` uses these and `GetGridCellCountYAML` gives the
same count. Not covered: several records of one of them (see `counts_violated`). -/
theorem counts_partial (rs : List Rec) (n : Int) (hn : values "SetGridCellCount" rs = [n])
    (ht : (values "ThreadCount" rs).length ≤ 1) :
    scanCounts (rs.map Rec.node) none none = .ok (some n, (values "ThreadCount" rs).head?) ∧
    gridCellCount (rs.map Rec.node) = .ok n := by
  constructor
  · rw [scan_eq rs none none (by simp [hn]) (by simpa using ht)]
    simp [hn]
  · rw [gridCellCount_eq, hn]
    rfl

/-! ## C94: the names of the items -/

theorem decode_values (ts : List Ty) : ∀ (a b : Node), a.map Prod.snd = b.map Prod.snd →
    decode ts a = decode ts b := by
  induction ts with
  | nil => intro a b _; simp [decode]
  | cons t ts ih =>
    intro a b h
    match a, b with
    | [], [] => rfl
    | [], _ :: _ => simp at h
    | _ :: _, [] => simp at h
    | (x, v) :: a, (y, w) :: b =>
      simp only [List.map_cons, List.cons.injEq] at h
      obtain ⟨rfl, h⟩ := h
      simp only [decode, ih a b h]

/-- **C94 (partial).** The names of the items have no influence: two entries with the same values
in the same order mean the same. The order has (see `order_matters`). -/
theorem names_ignored_partial (a b : Node) (h : a.map Prod.snd = b.map Prod.snd) :
    readNode a = readNode b := by
  match a, b with
  | [], [] => rfl
  | [], _ :: _ => simp at h
  | _ :: _, [] => simp at h
  | (x, v) :: a, (y, w) :: b =>
    simp only [List.map_cons, List.cons.injEq] at h
    obtain ⟨rfl, h⟩ := h
    have hl : a.length = b.length := by simpa using congrArg List.length h
    cases v with
    | string kw =>
      rw [readNode_branch, readNode_branch, hl]
      cases branch kw (b.length + 1) with
      | none => rfl
      | some r => simp only [decode_values r.types a b h]
    | _ => rfl

/-- What is recorded does have its own names: in an entry written by `YAMLPhreeqcRM` no name
occurs twice, so no item replaces another in the map. -/
theorem names_nodup : ∀ w ∈ writers, ("key" :: w.fields.map Prod.fst).Nodup := by
  decide +kernel

/-! ## C95: the value returned -/

/-- **C95 (partial).** If no exception is thrown the value returned is `IRM_OK`, whatever the
calls returned. -/
theorem returns_ok_partial {σ : Type} (perform : Call → σ → Option (σ × IRM)) (ns : List Node)
    (s s' : σ) (c : IRM) (h : replay perform ns s = (s', .ok c)) : c = .ok := by
  induction ns generalizing s with
  | nil =>
    simp only [replay, Prod.mk.injEq, Out.ok.injEq] at h
    exact h.2.symm
  | cons n ns ih =>
    rw [replay] at h
    split at h
    · exact ih s h
    · split at h
      · exact ih _ h
      · simp at h
    · simp at h
    · simp at h

end Verif.Yaml
