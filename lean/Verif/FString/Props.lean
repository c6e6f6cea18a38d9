import Verif.FString.Model
import Mathlib.Data.List.TakeWhile
import Mathlib.Tactic.SplitIfs

/-!
# C58, C100-C103: strings handed to C and Fortran callers
-/

namespace Verif.FString

/-! ## Specification -/

/-- What a C program reads from a buffer: the characters before the first NUL; `none` if there is
none, so that reading runs out of the buffer. -/
def readC (buf : Str) : Option Str := if nul ∈ buf then some (cstr buf) else none

/-- A text without NUL. -/
def Plain (s : Str) : Prop := nul ∉ s

/-- A text without blanks at the end. -/
def NoTrail (s : Str) : Prop := s.getLast? ≠ some ' '

instance (s : Str) : Decidable (Plain s) := inferInstanceAs (Decidable (¬ _))
instance (s : Str) : Decidable (NoTrail s) := inferInstanceAs (Decidable (_ ≠ _))

/-! ## Lemmas -/

theorem cstr_plain {s : Str} (h : Plain s) : cstr s = s := by
  unfold cstr
  rw [List.takeWhile_eq_self_iff]
  intro c hc
  simp only [decide_eq_true_eq]
  rintro rfl
  exact h hc

theorem cstr_append {s : Str} (h : Plain s) (r : Str) : cstr (s ++ nul :: r) = s := by
  unfold cstr
  rw [List.takeWhile_append_of_pos]
  · simp
  · intro c hc
    simp only [decide_eq_true_eq]
    rintro rfl
    exact h hc

theorem readC_append {s : Str} (h : Plain s) (r : Str) : readC (s ++ nul :: r) = some s := by
  unfold readC
  rw [if_pos (by simp), cstr_append h]

theorem readC_plain {s : Str} (h : Plain s) : readC s = none := by
  unfold readC
  exact if_neg h

theorem store_zero {buf cs : Str} (h : cs.length ≤ buf.length) :
    store buf 0 cs = .ok (cs ++ buf.drop cs.length) := by
  unfold store
  rw [Nat.zero_add, if_pos h]
  simp

theorem store_two {buf cs : Str} (h : cs.length < buf.length) :
    (store buf 0 cs >>= fun b => store b cs.length [nul]) =
      .ok (cs ++ nul :: buf.drop (cs.length + 1)) := by
  rw [store_zero (Nat.le_of_lt h), Out.ok_bind]
  unfold store
  have : cs.length + [nul].length ≤ (cs ++ buf.drop cs.length).length := by
    simp; omega
  rw [if_pos this]
  congr 1
  have e1 : List.take cs.length (cs ++ buf.drop cs.length) = cs := by simp
  have e2 : List.drop (cs.length + [nul].length) (cs ++ buf.drop cs.length) =
      buf.drop (cs.length + 1) := by
    rw [List.drop_append, List.drop_eq_nil_of_le (by simp), List.nil_append, List.drop_drop]
    congr 1
    simp
  rw [e1, e2]
  simp

theorem toSize_nat (n : Nat) : toSize n = n := by
  unfold toSize
  rw [if_neg (by omega)]
  simp

theorem padChars_eq (n : Nat) : ∀ s : Str, Plain s →
    padChars n s = s.take n ++ List.replicate (n - s.length) ' ' := by
  induction n with
  | zero => intro s _; simp [padChars]
  | succ n ih =>
    intro s hs
    cases s with
    | nil =>
      rw [padChars, ih [] (by simp [Plain])]
      simp [List.replicate_succ]
    | cons c cs =>
      have hc : c ≠ nul := fun h => hs (by rw [h]; exact List.mem_cons_self)
      have hcs : Plain cs := fun h => hs (List.mem_cons_of_mem _ h)
      rw [padChars, if_neg hc, ih cs hcs]
      simp

theorem padChars_length (n : Nat) : ∀ s : Str, (padChars n s).length = n := by
  induction n with
  | zero => intro s; rfl
  | succ n ih =>
    intro s
    cases s with
    | nil => simp [padChars, ih]
    | cons c cs =>
      rw [padChars]
      split <;> simp [ih]

theorem copyChars_eq (n : Nat) : ∀ s : Str, Plain s →
    copyChars n s = s.take n ++ List.replicate (n - s.length) nul := by
  induction n with
  | zero => intro s _; simp [copyChars]
  | succ n ih =>
    intro s hs
    cases s with
    | nil =>
      rw [copyChars, ih [] (by simp [Plain])]
      simp [List.replicate_succ]
    | cons c cs =>
      have hc : c ≠ nul := fun h => hs (by rw [h]; exact List.mem_cons_self)
      have hcs : Plain cs := fun h => hs (List.mem_cons_of_mem _ h)
      rw [copyChars, if_neg hc, ih cs hcs]
      simp

theorem copyChars_length (n : Nat) : ∀ s : Str, (copyChars n s).length = n := by
  induction n with
  | zero => intro s; rfl
  | succ n ih =>
    intro s
    cases s with
    | nil => simp [copyChars, ih]
    | cons c cs =>
      rw [copyChars]
      split <;> simp [ih]

theorem plain_take {s : Str} (h : Plain s) (n : Nat) : Plain (s.take n) :=
  fun hm => h (List.mem_of_mem_take hm)

/-! ## C58: padding and truncation -/

/-- What `rmpadfstring` of the C interface does for every buffer and positive length: the caller
reads the first `len - 1` characters, memory after position `len` keeps its content, and the report
is about `src.length < len - 1`. -/
theorem padC_result (buf src : Str) (n : Nat) (hs : Plain src) (hn : 0 < n) (hb : n ≤ buf.length) :
    ∃ b st, padC buf src n = .ok (b, st) ∧ readC b = some (src.take (n - 1)) ∧
      b.length = buf.length ∧ b.drop n = buf.drop n ∧
      (st = .ok ↔ src.length < n - 1) ∧ (st = .ok ∨ st = .invalidArg) := by
  unfold padC
  rw [if_neg (by omega), toSize_nat, cstr_plain hs]
  by_cases h : src.length < n - 1
  · simp only [h, if_true]
    have := store_two (buf := buf) (cs := src) (by omega)
    refine ⟨_, _, by rw [← bind_assoc, this]; rfl, ?_, ?_, ?_, by simp, .inl rfl⟩
    · rw [readC_append hs, List.take_of_length_le (by omega)]
    · simp; omega
    · rw [List.drop_append, List.drop_eq_nil_of_le (by omega), List.nil_append]
      obtain ⟨k, hk⟩ : ∃ k, n - src.length = k + 1 := ⟨n - src.length - 1, by omega⟩
      rw [hk, List.drop_succ_cons, List.drop_drop]
      congr 1
      omega
  · simp only [h, if_false]
    have hl : (src.take (n - 1)).length = n - 1 := by simp; omega
    have := store_two (buf := buf) (cs := src.take (n - 1)) (by omega)
    rw [hl] at this
    refine ⟨_, _, by rw [← bind_assoc, this]; rfl, ?_, ?_, ?_, by simp, .inr rfl⟩
    · exact readC_append (plain_take hs _) _
    · simp; omega
    · rw [List.drop_append, List.drop_eq_nil_of_le (by omega), List.nil_append, hl]
      have hk : n - (n - 1) = 0 + 1 := by omega
      rw [hk, List.drop_succ_cons, List.drop_drop]
      congr 1
      omega

/-- **C58 (partial), C interface.** Except for a text that exactly fills the buffer, the report is
right: `IRM_OK` exactly if the caller reads the whole text. For the exact fit see
`exact_fit_reported`. -/
theorem padC_partial (buf src : Str) (n : Nat) (hs : Plain src) (hn : 0 < n) (hb : n ≤ buf.length)
    (hne : src.length + 1 ≠ n) :
    ∃ b st, padC buf src n = .ok (b, st) ∧ (st = .ok ↔ readC b = some src) := by
  obtain ⟨b, st, h1, h2, _, _, h3, _⟩ := padC_result buf src n hs hn hb
  refine ⟨b, st, h1, ?_⟩
  rw [h2, h3]
  constructor
  · intro h
    rw [List.take_of_length_le (by omega)]
  · intro h
    simp only [Option.some.injEq] at h
    have := congrArg List.length h
    simp at this
    omega

/-- **C58 violated.** A text that exactly fills the buffer arrives in full and is reported as
truncated. -/
theorem exact_fit_reported (buf src : Str) (hs : Plain src) (hb : src.length + 1 ≤ buf.length) :
    ∃ b, padC buf src (src.length + 1 : Nat) = .ok (b, .invalidArg) ∧ readC b = some src := by
  obtain ⟨b, st, h1, h2, _, _, h3, h4⟩ := padC_result buf src (src.length + 1) hs (by omega) hb
  have : st ≠ .ok := by rw [Ne, h3]; omega
  rcases h4 with h4 | h4
  · exact absurd h4 this
  · subst h4
    exact ⟨b, h1, by rw [h2]; simp⟩

/-- A negative length is not refused: the text is written whatever the size of the buffer. -/
theorem negative_length (buf src : Str) (hs : Plain src) (l : Int) (hl : l < 0) (hm : -2147483648 ≤ l)
    (hsz : src.length < 2147483648) :
    (padC buf src l = .ub ↔ buf.length < src.length + 1) := by
  have e : toSize l - 1 = 2 ^ 64 - l.natAbs - 1 := by
    unfold toSize
    rw [if_pos hl]
    omega
  unfold padC
  rw [if_neg (by omega), cstr_plain hs]
  have hlt : src.length < toSize l - 1 := by rw [e]; omega
  simp only [hlt, if_true]
  constructor
  · intro h
    by_contra hc
    have := store_two (buf := buf) (cs := src) (by omega)
    rw [← bind_assoc, this] at h
    simp at h
  · intro h
    by_cases h2 : src.length ≤ buf.length
    · rw [store_zero h2, Out.ok_bind]
      unfold store
      rw [if_neg (by simp; omega)]
      rfl
    · unfold store
      rw [if_neg (by omega)]
      rfl

/-- **C58 (partial), Fortran interface.** A text that fits arrives unchanged with blanks after it;
memory behind is untouched. -/
theorem padF_partial (buf src : Str) (n : Nat) (hs : Plain src) (hb : n ≤ buf.length)
    (hfit : src.length ≤ n) :
    padF buf src n = .ok (src ++ List.replicate (n - src.length) ' ' ++ buf.drop n) := by
  unfold padF
  rw [store_zero (by rw [padChars_length]; exact hb), padChars_length, padChars_eq n src hs,
    List.take_of_length_le hfit]

/-- **C58 violated, Fortran interface.** Every function reports success however much of the name
is lost. -/
theorem fortran_truncates_silently (names : List Str) (i : Nat) (s : Str) (hi : names[i]? = some s)
    (hs : Plain s) (n : Nat) (hn : 0 < n) (buf : Str) (hb : n ≤ buf.length) :
    ∃ b, getF names (i + 1 : Nat) buf n = .ok (b, .ok) ∧
      b.take n = s.take n ++ List.replicate (n - s.length) ' ' := by
  have hlt : i < names.length := by
    have := (List.getElem?_eq_some_iff.mp hi).1
    exact this
  unfold getF
  rw [if_pos ⟨by omega, by omega, by omega⟩]
  have e : ((i + 1 : Nat) - 1 : Int).toNat = i := by omega
  rw [e, hi]
  simp only [toSize_nat]
  unfold padF
  rw [store_zero (by rw [padChars_length]; exact hb), Out.ok_bind]
  refine ⟨_, rfl, ?_⟩
  rw [← padChars_eq n s hs]
  have := padChars_length n s
  rw [List.take_append_of_le_length (by omega), List.take_of_length_le (by omega)]

/-! ## C100, C101: the C functions that return names -/

/-- What `strncpy` leaves for the reader: the whole text if there is room for the NUL, otherwise a
text without end inside the first `n` characters. -/
theorem strncpy_spec (buf src : Str) (n : Nat) (hs : Plain src) (hb : n ≤ buf.length) :
    ∃ b, strncpy buf src n = .ok b ∧ b.length = buf.length ∧ b.drop n = buf.drop n ∧
      (src.length < n → readC b = some src) ∧
      (n ≤ src.length → readC (b.take n) = none ∧ b.take n = src.take n) := by
  have hl := copyChars_length n src
  refine ⟨copyChars n src ++ buf.drop n, ?_, ?_, ?_, ?_, ?_⟩
  · unfold strncpy
    rw [if_pos hb, store_zero (by omega), hl]
  · simp; omega
  · rw [List.drop_append, List.drop_eq_nil_of_le (by omega), hl]
    simp
  · intro h
    rw [copyChars_eq n src hs, List.take_of_length_le (by omega)]
    obtain ⟨k, hk⟩ : ∃ k, n - src.length = k + 1 := ⟨n - src.length - 1, by omega⟩
    rw [hk, List.replicate_succ, List.append_assoc, List.cons_append]
    exact readC_append hs _
  · intro h
    have e : (copyChars n src ++ buf.drop n).take n = src.take n := by
      rw [List.take_append_of_le_length (by omega), List.take_of_length_le (by omega),
        copyChars_eq n src hs]
      have : n - src.length = 0 := by omega
      rw [this]
      simp
    rw [e]
    exact ⟨readC_plain (plain_take hs _), rfl⟩

/-- **C100 (partial).** With a good buffer, an index of the list gives the name and `IRM_OK`; other
indices are refused and leave the buffer alone, except the number of names itself. For that index
see `index_count_undefined`. -/
theorem index_partial (f : CFun) (names : List Str) (num : Int) (buf : Str) (n : Nat) (hn : 0 < n)
    (hb : n ≤ buf.length) (hplain : ∀ s ∈ names, Plain s) :
    (∀ s, 0 ≤ num → names[num.toNat]? = some s → ∃ b, getC f names num buf n = .ok (b, .ok) ∧
        (s.length < n → readC b = some s)) ∧
      ((num < 0 ∨ names.length < num) → getC f names num buf n = .ok (buf, .invalidArg)) := by
  constructor
  · intro s h0 hs
    have hlt := (List.getElem?_eq_some_iff.mp hs).1
    have ha : f.accepts names.length num n = true := by
      cases f <;> simp only [CFun.accepts, decide_eq_true_eq] <;> omega
    obtain ⟨b, h1, _, _, h2, _⟩ := strncpy_spec buf s n
      (hplain s (List.mem_of_getElem? hs)) hb
    refine ⟨b, ?_, h2⟩
    unfold getC
    rw [if_pos ha, hs]
    simp only [toSize_nat, h1, Out.ok_bind]
  · intro h
    have ha : f.accepts names.length num n = false := by
      cases f <;> simp only [CFun.accepts, decide_eq_false_iff_not] <;> omega
    unfold getC
    rw [ha]
    rfl

/-- **C100 violated.** All functions but `RM_GetComponent` and `RM_GetSpeciesName` accept the number
of names as index and read behind the list. -/
theorem index_count_undefined (f : CFun) (names : List Str) (buf : Str) (n : Nat) (hn : 0 < n) :
    (getC f names names.length buf n = .ub ↔ f ≠ .component ∧ f ≠ .species) := by
  constructor
  · intro h
    constructor
    · rintro rfl
      simp [getC, CFun.accepts] at h
    · rintro rfl
      simp [getC, CFun.accepts] at h
  · rintro ⟨h1, h2⟩
    have ha : f.accepts names.length names.length n = true := by
      cases f <;> simp_all [CFun.accepts]
    unfold getC
    rw [if_pos ha]
    simp

/-- **C101 (partial), and its violation.** The name is a terminated C string exactly if it is
shorter than the buffer length; otherwise the first `n` characters have no end, and the call still
reports success. -/
theorem terminated_partial (f : CFun) (names : List Str) (num : Nat) (s : Str)
    (hs : names[num]? = some s) (hp : Plain s) (n : Nat) (hn : 0 < n) (buf : Str)
    (hb : buf.length = n) :
    ∃ b, getC f names num buf n = .ok (b, .ok) ∧ (readC b = some s ↔ s.length < n) ∧
      (n ≤ s.length → readC b = none) := by
  have hlt := (List.getElem?_eq_some_iff.mp hs).1
  have ha : f.accepts names.length num n = true := by
    cases f <;> simp only [CFun.accepts, decide_eq_true_eq] <;> omega
  obtain ⟨b, h1, hl, _, h2, h3⟩ := strncpy_spec buf s n hp (by omega)
  have hnone : n ≤ s.length → readC b = none := by
    intro h
    have := (h3 h).1
    rwa [List.take_of_length_le (by omega)] at this
  refine ⟨b, ?_, ⟨fun h => ?_, h2⟩, hnone⟩
  · unfold getC
    rw [if_pos ha, Int.toNat_natCast, hs]
    simp only [toSize_nat, h1, Out.ok_bind]
  · by_contra hc
    rw [hnone (by omega)] at h
    simp at h

/-- The names of the BMI functions: any index outside the list is undefined. -/
theorem bmiName_undefined (names : List Str) (i : Int) (buf : Str) (l : Int)
    (h : i < 0 ∨ names.length ≤ i) : bmiName names i buf l = .ub := by
  unfold bmiName
  split
  · rfl
  · have : names[i.toNat]? = none := List.getElem?_eq_none (by omega)
    rw [this]

/-! ## C102: lists of names in Fortran -/

theorem trimR_pad {s : Str} (h : NoTrail s) (k : Nat) : trimR (s ++ List.replicate k ' ') = s := by
  unfold trimR
  rw [List.reverse_append, List.reverse_replicate]
  have : List.dropWhile (fun x => decide (x = ' ')) (List.replicate k ' ' ++ s.reverse) =
      List.dropWhile (fun x => decide (x = ' ')) s.reverse := by
    induction k with
    | zero => simp
    | succ k ih => simp [List.replicate_succ]
  rw [this]
  have h2 : List.dropWhile (fun x => decide (x = ' ')) s.reverse = s.reverse := by
    cases hr : s.reverse with
    | nil => rfl
    | cons c cs =>
      have hl : s.getLast? = some c := by
        rw [← List.head?_reverse, hr]; rfl
      have : c ≠ ' ' := by
        rintro rfl; exact h hl
      simp [this]
  rw [h2, List.reverse_reverse]

/-- One call with a large enough variable. -/
theorem getF_ok {names : List Str} {i : Nat} {s : Str} (hi : names[i]? = some s) (hs : Plain s)
    (buf : Str) (hb : 0 < buf.length) (hfit : s.length ≤ buf.length) :
    getF names ((i : Int) + 1) buf buf.length =
      .ok (s ++ List.replicate (buf.length - s.length) ' ', .ok) := by
  have hlt := (List.getElem?_eq_some_iff.mp hi).1
  unfold getF
  rw [if_pos ⟨by omega, by omega, by omega⟩]
  have e : ((i : Int) + 1 - 1).toNat = i := by omega
  rw [e, hi]
  simp only [toSize_nat]
  rw [padF_partial buf s buf.length hs (Nat.le_refl _) hfit]
  simp

/-- Names that can be returned: no NUL, no blanks at the end, not longer than the variable. -/
def Good (cap : Nat) (s : Str) : Prop := Plain s ∧ NoTrail s ∧ s.length ≤ cap

theorem pass1_spec (names : List Str) (cap : Nat) (hc : 0 < cap) (hg : ∀ s ∈ names, Good cap s) :
    ∀ (is : List Nat) (scratch : Str) (r : Nat × Option IRM), scratch.length = cap →
      (∀ i ∈ is, i < names.length) →
      ∃ m, pass1 names is scratch r = .ok (m, if is = [] then r.2 else some .ok) ∧ r.1 ≤ m ∧
        (∀ i ∈ is, ∀ s, names[i]? = some s → s.length ≤ m) ∧
        (m = r.1 ∨ ∃ i ∈ is, ∃ s, names[i]? = some s ∧ s.length = m) := by
  intro is
  induction is with
  | nil => intro sc r _ _; exact ⟨r.1, by simp [pass1], Nat.le_refl _, by simp, .inl rfl⟩
  | cons i is ih =>
    intro sc r hsc hi
    have hlt := hi i List.mem_cons_self
    obtain ⟨s, hs⟩ : ∃ s, names[i]? = some s := ⟨names[i], List.getElem?_eq_getElem hlt⟩
    obtain ⟨g1, g2, g3⟩ := hg s (List.mem_of_getElem? hs)
    have hcall := getF_ok hs g1 sc (by omega) (by omega)
    rw [pass1, hcall, Out.ok_bind]
    simp only [trimR_pad g2]
    obtain ⟨m, h1, h2, h3, h4⟩ := ih (s ++ List.replicate (sc.length - s.length) ' ')
      (if s.length > r.1 then s.length else r.1, some .ok) (by simp; omega)
      (fun j hj => hi j (List.mem_cons_of_mem _ hj))
    refine ⟨m, ?_, ?_, ?_, ?_⟩
    · rw [h1]
      simp
    · simp only at h2
      split at h2 <;> omega
    · intro j hj t ht
      rcases List.mem_cons.mp hj with rfl | hj
      · rw [hs] at ht
        simp only [Option.some.injEq] at ht
        subst ht
        simp only at h2
        split at h2 <;> omega
      · exact h3 j hj t ht
    · rcases h4 with h4 | ⟨j, hj, t, ht, htm⟩
      · simp only at h4
        split at h4
        · exact .inr ⟨i, List.mem_cons_self, s, hs, h4.symm⟩
        · exact .inl h4
      · exact .inr ⟨j, List.mem_cons_of_mem _ hj, t, ht, htm⟩

/-- What the caller should get: the names, all blank-padded to one length. -/
def Listed (names out : List Str) : Prop :=
  ∃ m, out = names.map (fun s => s ++ List.replicate (m - s.length) ' ') ∧
    ∀ s ∈ names, s.length ≤ m

theorem map_get (names : List Str) (f : Str → Str) (is : List Nat)
    (h : ∀ i ∈ is, i < names.length) :
    is.filterMap (fun i => (names[i]?).map f) = is.map (fun i => f (names[i]?.getD [])) := by
  induction is with
  | nil => rfl
  | cons i is ih =>
    have hlt := h i List.mem_cons_self
    rw [List.filterMap_cons, List.map_cons, ih (fun j hj => h j (List.mem_cons_of_mem _ hj)),
      List.getElem?_eq_getElem hlt]
    simp

theorem map_range (names : List Str) (f : Str → Str) :
    (List.range names.length).map (fun i => f (names[i]?.getD [])) = names.map f := by
  apply List.ext_getElem
  · simp
  · intro i h1 h2
    simp at h1 h2
    simp [h1]

theorem pass2_spec (names : List Str) (m : Nat) (hm : 0 < m) (init : Str) (hinit : init.length = m)
    (hg : ∀ s ∈ names, Plain s ∧ s.length ≤ m) : ∀ (is : List Nat) (st : Option IRM),
      (∀ i ∈ is, i < names.length) →
      pass2 names init is st =
        .ok (is.map (fun i => (names[i]?.getD []) ++
          List.replicate (m - (names[i]?.getD []).length) ' '),
          if is = [] then st else some .ok) := by
  intro is
  induction is with
  | nil => intro st _; simp [pass2]
  | cons i is ih =>
    intro st hi
    have hlt := hi i List.mem_cons_self
    have hs : names[i]? = some names[i] := List.getElem?_eq_getElem hlt
    obtain ⟨g1, g2⟩ := hg names[i] (List.getElem_mem hlt)
    have hcall := getF_ok hs g1 init (by omega) (by omega)
    rw [pass2, hcall, Out.ok_bind]
    simp only [ih (some .ok) (fun j hj => hi j (List.mem_cons_of_mem _ hj)), Out.ok_bind]
    simp [hs, hinit]

theorem pass2Head_spec (names : List Str) (cap : Nat) (hc : 0 < cap) (m : Nat)
    (hg : ∀ s ∈ names, Good cap s ∧ s.length ≤ m) : ∀ (is : List Nat) (sc : Str) (st : Option IRM),
      sc.length = cap → (∀ i ∈ is, i < names.length) →
      pass2Head names m is sc st =
        .ok (is.map (fun i => (names[i]?.getD []) ++
          List.replicate (m - (names[i]?.getD []).length) ' '),
          if is = [] then st else some .ok) := by
  intro is
  induction is with
  | nil => intro sc st _ _; simp [pass2Head]
  | cons i is ih =>
    intro sc st hsc hi
    have hlt := hi i List.mem_cons_self
    have hs : names[i]? = some names[i] := List.getElem?_eq_getElem hlt
    obtain ⟨⟨g1, g2, g3⟩, g4⟩ := hg names[i] (List.getElem_mem hlt)
    have hcall := getF_ok hs g1 sc (by omega) (by omega)
    rw [pass2Head, hcall, Out.ok_bind]
    simp only [ih _ (some .ok) (show (names[i] ++ List.replicate (sc.length - names[i].length)
      ' ').length = cap by simp; omega) (fun j hj => hi j (List.mem_cons_of_mem _ hj)), Out.ok_bind,
      trimR_pad g2]
    simp [hs, assign, List.take_of_length_le g4]

/-- **C102 (partial).** The list functions return every name in full, padded to one length, with
`IRM_OK`, for every list with a name that is not empty. Not covered: the empty list (see
`empty_list_status`), names longer than 2048 (or 1024) characters (see `long_name_cut`). -/
theorem names_partial (junk : Nat → Str) (hj : ∀ k, (junk k).length = k) (names : List Str)
    (hg : ∀ s ∈ names, Good 2048 s) (hne : ∃ s ∈ names, s ≠ []) :
    ∃ out, getNames junk names = .ok (out, some .ok) ∧ Listed names out := by
  have hr : ∀ i ∈ List.range names.length, i < names.length := fun i hi => List.mem_range.mp hi
  obtain ⟨m, h1, _, h3, _⟩ := pass1_spec names 2048 (by omega) hg (List.range names.length)
    (junk 2048) (0, none) (hj _) hr
  have hle : ∀ s ∈ names, s.length ≤ m := by
    intro s hs
    obtain ⟨i, hi, rfl⟩ := List.mem_iff_getElem.mp hs
    exact h3 i (List.mem_range.mpr hi) _ (List.getElem?_eq_getElem hi)
  obtain ⟨s0, hs0, hn0⟩ := hne
  have hm : 0 < m := by
    have := hle s0 hs0
    have := List.length_pos_iff.mpr hn0
    omega
  have hnil : List.range names.length ≠ [] := by
    have := List.length_pos_of_mem hs0
    intro h
    have := congrArg List.length h
    simp at this
    subst this
    simp at hs0
  refine ⟨_, ?_, m, rfl, hle⟩
  unfold getNames
  simp only [h1, Out.ok_bind, hnil, if_false]
  rw [pass2_spec names m hm (junk m) (hj m) (fun s hs => ⟨(hg s hs).1, hle s hs⟩) _ _ hr]
  simp only [hnil, if_false]
  rw [map_range names (fun s => s ++ List.replicate (m - s.length) ' ')]

theorem names_head_partial (junk : Nat → Str) (hj : ∀ k, (junk k).length = k) (names : List Str)
    (hg : ∀ s ∈ names, Good 1024 s) (hne : names ≠ []) :
    ∃ out, getNamesHead junk names = .ok (out, some .ok) ∧ Listed names out := by
  have hr : ∀ i ∈ List.range names.length, i < names.length := fun i hi => List.mem_range.mp hi
  obtain ⟨m, h1, _, h3, _⟩ := pass1_spec names 1024 (by omega) hg (List.range names.length)
    (junk 1024) (0, none) (hj _) hr
  have hle : ∀ s ∈ names, s.length ≤ m := by
    intro s hs
    obtain ⟨i, hi, rfl⟩ := List.mem_iff_getElem.mp hs
    exact h3 i (List.mem_range.mpr hi) _ (List.getElem?_eq_getElem hi)
  have hnil : List.range names.length ≠ [] := by
    have := List.length_pos_iff.mpr hne
    intro h
    have := congrArg List.length h
    simp at this
    exact hne this
  refine ⟨_, ?_, m, rfl, hle⟩
  unfold getNamesHead
  simp only [h1, Out.ok_bind, hnil, if_false]
  rw [pass2Head_spec names 1024 (by omega) m (fun s hs => ⟨hg s hs, hle s hs⟩) _ _ _ (hj _) hr]
  simp only [hnil, if_false]
  rw [map_range names (fun s => s ++ List.replicate (m - s.length) ' ')]

/-- **C102 violated.** For an empty list (no exchangers, no gases) the function returns a variable
that was never set. -/
theorem empty_list_status (junk : Nat → Str) : getNames junk [] = .ok ([], none) := by
  simp [getNames, pass1, pass2]

/-! ## C103: prefix and error string -/

/-- **C103.** The file prefix reaches a Fortran caller in full, whatever its length. -/
theorem prefix_returned (junk : Nat → Str) (hj : ∀ k, (junk k).length = k) (s : Str) (hs : Plain s) :
    getPrefix junk s = .ok (s, .ok) := by
  have h10 : toSize 10 = 10 := toSize_nat 10
  have e1 : padF (junk 10) s 10 = .ok (padChars 10 s ++ (junk 10).drop 10) := by
    unfold padF
    rw [store_zero (by rw [padChars_length, hj]), padChars_length]
  have e2 := padF_partial (junk s.length) s s.length hs (by rw [hj]) (Nat.le_refl _)
  unfold getPrefix getPrefixF
  simp only [h10, e1, Out.ok_bind, toSize_nat, Int.toNat_natCast, e2]
  simp [hj]

/-- **C103.** The error messages reach a Fortran caller in full (with one blank), and a C caller
that provides one character more than the length, as documented in RM_interface_C.h:2036-2038. -/
theorem error_returned (junk : Nat → Str) (hj : ∀ k, (junk k).length = k) (s : Str) (hs : Plain s) :
    getErrorF junk s = .ok (s ++ [' '], .ok) ∧
      ∃ b, getErrorC s (junk (s.length + 1)) (s.length + 1 : Nat) = .ok (b, .ok) ∧
        readC b = some s := by
  constructor
  · have e := padF_partial (junk (s.length + 1)) s (s.length + 1) hs (by rw [hj]) (by omega)
    unfold getErrorF
    rw [e, Out.ok_bind]
    simp [hj]
  · obtain ⟨b, h1, _, _, h2, _⟩ := strncpy_spec (junk (s.length + 1)) s (s.length + 1) hs
      (by rw [hj])
    refine ⟨b, ?_, h2 (by omega)⟩
    unfold getErrorC
    rw [toSize_nat, h1, Out.ok_bind]

/-- **C103.** A Fortran text without NUL arrives in the library without its blanks at the end. -/
theorem input_arrives (s : Str) (hs : Plain s) (hn : NoTrail s) (k : Nat) :
    arrives (s ++ List.replicate k ' ') = s := by
  unfold arrives
  rw [trimR_pad hn, cstr_append hs]

end Verif.FString
