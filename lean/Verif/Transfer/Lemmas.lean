import Verif.Ranges.Lemmas
import Verif.Store.Lemmas
import Verif.Transfer.Model
import Mathlib.Logic.Function.Iterate

/-! # Helper lemmas about moving and running cells -/

namespace Verif.Transfer

open Verif.Store Verif.Ranges

variable {α : Type}

@[simp] theorem setAt_same {β : Type} (f : Nat → β) (i : Nat) (v : β) : setAt f i v i = v := by
  simp [setAt]

theorem setAt_other {β : Type} (f : Nat → β) (i j : Nat) (v : β) (h : j ≠ i) :
    setAt f i v j = f j := by simp [setAt, h]

theorem moveCell_rx (uzOn : Bool) (w : Workers α) (old new : Nat) (k : Int) (h : old ≠ new)
    (i : Nat) (kd : Kind) (m : Int) :
    (moveCell uzOn w old new k).rx i kd m =
      if m = k ∧ i = old then none
      else if m = k ∧ i = new ∧ kd ∈ toBinKinds ∧ (w.rx old kd k).isSome then w.rx old kd k
      else w.rx i kd m := by
  have e : (moveCell uzOn w old new k).rx = setAt (setAt w.rx new (bin2phreeqc (w.rx new)
      (phreeqc2bin (w.rx old) empty k) k)) old (deleteCell ((setAt w.rx new (bin2phreeqc (w.rx new)
      (phreeqc2bin (w.rx old) empty k) k)) old) k) := by
    unfold moveCell
    split <;> rfl
  rw [e]
  by_cases h1 : i = old
  · subst h1
    rw [setAt_same, deleteCell_apply, setAt_other _ _ _ _ h]
    by_cases hm : m = k <;> simp [hm, h]
  · rw [setAt_other _ _ _ _ h1]
    by_cases h2 : i = new
    · subst h2
      rw [setAt_same, bin2phreeqc_apply]
      simp only [phreeqc2bin_apply]
      by_cases hm : m = k <;> by_cases hk : kd ∈ toBinKinds <;>
        by_cases hs : (w.rx old kd k).isSome = true <;>
        simp_all [empty]
    · rw [setAt_other _ _ _ _ h2]
      simp [h1, h2]

theorem moveCell_uz (w : Workers α) (old new : Nat) (k : Int) (h : old ≠ new)
    (i : Nat) (kd : Kind) (m : Int) :
    (moveCell true w old new k).uz i kd m =
      if m = k ∧ i = old then none
      else if m = k ∧ i = new ∧ (w.uz old kd k).isSome then w.uz old kd k
      else w.uz i kd m := by
  have e : (moveCell true w old new k).uz = setAt (setAt w.uz new (add (w.uz new)
      (w.uz old) k)) old (remove ((setAt w.uz new (add (w.uz new)
      (w.uz old) k)) old) k) := rfl
  rw [e]
  by_cases h1 : i = old
  · subst h1
    rw [setAt_same, remove_apply, setAt_other _ _ _ _ h]
    by_cases hm : m = k <;> simp [hm, h]
  · rw [setAt_other _ _ _ _ h1]
    by_cases h2 : i = new
    · subst h2
      rw [setAt_same, add_apply]
      by_cases hm : m = k <;> simp_all
    · rw [setAt_other _ _ _ _ h2]
      simp [h1, h2]

/-- Position `i` with the remaining last cells `es` and the lower bound `a` of range
`i`: what the loop keeps about one list of ranges. -/
structure At (rs : List (Int × Int)) (b : Int) (i : Nat) (es : List Int) (k : Int) : Prop where
  ex : ∃ a rest, rs.drop i = rest ∧ es = rest.map Prod.snd ∧ Contig a b rest ∧ a ≤ k

theorem advance_spec (rs : List (Int × Int)) (b k : Int) (hk : k < b) :
    ∀ (es : List Int) (i : Nat), At rs b i es k →
    ∃ i' es', advance k i es = .ok (i', es') ∧ Owns rs i' k ∧ At rs b i' es' (k + 1) ∧
      At rs b i' es' k := by
  intro es
  induction es with
  | nil =>
    rintro i ⟨a, rest, h1, h2, h3, h4⟩
    have : rest = [] := by
      cases rest with
      | nil => rfl
      | cons _ _ => simp at h2
    subst this
    simp only [Contig] at h3
    omega
  | cons e es ih =>
    rintro i ⟨a, rest, h1, h2, h3, h4⟩
    cases rest with
    | nil => simp at h2
    | cons r rest =>
      simp only [List.map_cons, List.cons.injEq] at h2
      obtain ⟨h5, h6, h7⟩ := h3
      simp only [advance]
      have hd : rs.drop (i + 1) = rest := by
        have := congrArg (List.drop 1) h1
        rw [List.drop_drop] at this
        simpa using this
      by_cases hgt : k > e
      · rw [if_pos hgt]
        exact ih (i + 1) ⟨r.2 + 1, rest, hd, h2.2, h7, by have := h2.1; omega⟩
      · rw [if_neg hgt]
        have hown : Owns rs i k := by
          refine ⟨r, ?_, by omega, by have := h2.1; omega⟩
          have := congrArg (fun l => l[0]?) h1
          simpa using this
        have hat : At rs b i (e :: es) k := ⟨a, r :: rest, h1, by simp [h2], ⟨h5, h6, h7⟩, h4⟩
        have hat' : At rs b i (e :: es) (k + 1) :=
          ⟨a, r :: rest, h1, by simp [h2], ⟨h5, h6, h7⟩, by omega⟩
        exact ⟨i, e :: es, rfl, hown, hat', hat⟩

theorem runSchedule_apply (react : Int → Cell α → Option (Cell α)) (cont : Bool) (s : List Nat) :
    ∀ (ts : Nat → Thread α) (i : Nat),
      runSchedule react cont s ts i = (stepThread react cont)^[s.count i] (ts i) := by
  induction s with
  | nil => intro ts i; rfl
  | cons j s ih =>
    intro ts i
    rw [runSchedule, ih, List.count_cons]
    by_cases h : j = i
    · subst h; simp
    · rw [setAt_other _ _ _ _ (fun e => h e.symm)]; simp [h]

/-- Effect of running a list of cells to the end, as a single function: new bin and
failure flag. -/
def runAll (react : Int → Cell α → Option (Cell α)) (cont : Bool) :
    List Int → Bin α → Bin α × Bool
  | [], b => (b, false)
  | c :: cs, b =>
    match react c (cellOf b c) with
    | some x => runAll react cont cs (putCell b c x)
    | none => if cont then runAll react cont cs b else (b, true)

theorem step_done (react : Int → Cell α → Option (Cell α)) (cont : Bool) (t : Thread α)
    (h : t.todo = []) (n : Nat) : (stepThread react cont)^[n] t = t := by
  induction n with
  | zero => rfl
  | succ n ih =>
    rw [Function.iterate_succ_apply]
    have : stepThread react cont t = t := by unfold stepThread; rw [h]
    rw [this, ih]

/-- If a worker has nothing left to do after `n` steps, it has run its cells to the end. -/
theorem steps_runAll (react : Int → Cell α → Option (Cell α)) (cont : Bool) :
    ∀ (n : Nat) (b : Bin α) (todo : List Int),
      ((stepThread react cont)^[n] ⟨b, todo, false⟩).todo = [] →
      ((stepThread react cont)^[n] ⟨b, todo, false⟩).bin = (runAll react cont todo b).1 ∧
      ((stepThread react cont)^[n] ⟨b, todo, false⟩).failed = (runAll react cont todo b).2 := by
  intro n
  induction n with
  | zero =>
    intro b todo h
    simp only [Function.iterate_zero, id_eq] at h ⊢
    subst h
    exact ⟨rfl, rfl⟩
  | succ n ih =>
    intro b todo h
    rw [Function.iterate_succ_apply] at h ⊢
    cases todo with
    | nil =>
      rw [show stepThread react cont ⟨b, [], false⟩ = ⟨b, [], false⟩ from rfl] at h ⊢
      exact ih b [] h
    | cons c cs =>
      cases hr : react c (cellOf b c) with
      | some x =>
        have e : stepThread react cont ⟨b, c :: cs, false⟩ = ⟨putCell b c x, cs, false⟩ := by
          simp [stepThread, hr]
        rw [e] at h ⊢
        simp only [runAll, hr]
        exact ih _ _ h
      | none =>
        cases cont with
        | true =>
          have e : stepThread react true ⟨b, c :: cs, false⟩ = ⟨b, cs, false⟩ := by
            simp [stepThread, hr]
          rw [e] at h ⊢
          simp only [runAll, hr, if_true]
          exact ih _ _ h
        | false =>
          have e : stepThread react false ⟨b, c :: cs, false⟩ = ⟨b, [], true⟩ := by
            simp [stepThread, hr]
          rw [e, step_done _ _ _ rfl]
          simp [runAll, hr]

theorem cellOf_putCell (b : Bin α) (c m : Int) (x : Cell α) :
    cellOf (putCell b c x) m = if m = c then x else cellOf b m := by
  funext k
  unfold cellOf putCell
  split <;> rfl

/-- All cells succeed or errors are passed over: every listed cell is replaced by its
result, other cells stay. -/
theorem runAll_ok (react : Int → Cell α → Option (Cell α)) (cont : Bool) :
    ∀ (cs : List Int) (b : Bin α), cs.Nodup →
      (cont = true ∨ ∀ c ∈ cs, (react c (cellOf b c)).isSome) →
      (runAll react cont cs b).2 = false ∧
      ∀ m, cellOf (runAll react cont cs b).1 m =
        if m ∈ cs then (react m (cellOf b m)).getD (cellOf b m) else cellOf b m := by
  intro cs
  induction cs with
  | nil => intro b _ _; simp [runAll]
  | cons c cs ih =>
    intro b hn hs
    obtain ⟨hc, hn'⟩ := List.nodup_cons.mp hn
    cases hr : react c (cellOf b c) with
    | some x =>
      simp only [runAll, hr]
      have hsame : ∀ m ∈ cs, cellOf (putCell b c x) m = cellOf b m := by
        intro m hm
        rw [cellOf_putCell, if_neg]
        intro e; subst e; exact hc hm
      obtain ⟨h1, h2⟩ := ih (putCell b c x) hn' (by
        rcases hs with h | h
        · exact .inl h
        · right
          intro m hm
          rw [hsame m hm]
          exact h m (List.mem_cons_of_mem _ hm))
      refine ⟨h1, fun m => ?_⟩
      rw [h2 m]
      by_cases hm : m ∈ cs
      · rw [if_pos hm, if_pos (List.mem_cons_of_mem _ hm), hsame m hm]
      · rw [if_neg hm, cellOf_putCell]
        by_cases e : m = c
        · subst e; simp [hr]
        · simp [e, hm]
    | none =>
      cases cont with
      | false =>
        rcases hs with h | h
        · simp at h
        · have := h c (by simp)
          rw [hr] at this
          simp at this
      | true =>
        simp only [runAll, hr, if_true]
        obtain ⟨h1, h2⟩ := ih b hn' (.inl rfl)
        refine ⟨h1, fun m => ?_⟩
        rw [h2 m]
        by_cases e : m = c
        · subst e; simp [hr, hc]
        · simp [e]

/-- Failure is reported exactly when some listed cell fails. -/
theorem runAll_failed (react : Int → Cell α → Option (Cell α)) :
    ∀ (cs : List Int) (b : Bin α), cs.Nodup →
      ((runAll react false cs b).2 = true ↔ ∃ c ∈ cs, react c (cellOf b c) = none) := by
  intro cs
  induction cs with
  | nil => intro b _; simp [runAll]
  | cons c cs ih =>
    intro b hn
    obtain ⟨hc, hn'⟩ := List.nodup_cons.mp hn
    cases hr : react c (cellOf b c) with
    | none => simp [runAll, hr]
    | some x =>
      simp only [runAll, hr]
      rw [ih _ hn']
      have hsame : ∀ m ∈ cs, cellOf (putCell b c x) m = cellOf b m := by
        intro m hm
        rw [cellOf_putCell, if_neg]
        intro e; subst e; exact hc hm
      constructor
      · rintro ⟨m, hm, e⟩
        exact ⟨m, List.mem_cons_of_mem _ hm, by rwa [hsame m hm] at e⟩
      · rintro ⟨m, hm, e⟩
        rcases List.mem_cons.mp hm with h | h
        · subst h; rw [hr] at e; simp at e
        · exact ⟨m, h, by rw [hsame m h]; exact e⟩

theorem mem_rangeCells (r : Int × Int) (c : Int) : c ∈ rangeCells r ↔ r.1 ≤ c ∧ c ≤ r.2 := by
  unfold rangeCells
  rw [List.mem_map]
  constructor
  · rintro ⟨n, hn, e⟩
    rw [List.mem_range] at hn
    omega
  · rintro ⟨h1, h2⟩
    exact ⟨(c - r.1).toNat, by rw [List.mem_range]; omega, by omega⟩

theorem nodup_rangeCells (r : Int × Int) : (rangeCells r).Nodup := by
  unfold rangeCells
  rw [List.Nodup, List.pairwise_map]
  refine List.Pairwise.imp ?_ List.nodup_range
  intro a b h e
  exact h (by omega)

end Verif.Transfer
