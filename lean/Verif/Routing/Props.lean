import Verif.Routing.Lemmas

/-!
# C62: RunString runs the input in the chosen instances
# C111: RunFile does the same for a file
# C112: LoadDatabase loads every instance
-/

namespace Verif.Routing

open Verif.Setters Verif.FString

variable {σ : Type}

/-! ## Specification -/

/-- The instances chosen by the three flags. -/
def Wanted (workers initial utility : Bool) (nthreads n : Nat) : Prop :=
  (n < nthreads ∧ workers = true) ∨ (n = nthreads ∧ initial = true) ∨
    (n = nthreads + 1 ∧ utility = true)

/-- A run that PHREEQC ends with errors or with an exception. -/
def Run.Fails : Run σ → Prop
  | .finished n _ => n ≠ 0
  | .threw _ => True

instance : DecidablePred (Run.Fails (σ := σ))
  | .finished n _ => inferInstanceAs (Decidable (n ≠ 0))
  | .threw _ => isTrue trivial

/-- The output flag of an instance: first for the workers, second for InitialPhreeqc, third for
Utility (`SetPrintChemistryOn`). -/
def Printing (p : Bool × Bool × Bool) (nthreads n : Nat) : Prop :=
  (n < nthreads ∧ p.1 = true) ∨ (n = nthreads ∧ p.2.1 = true) ∨ (nthreads < n ∧ p.2.2 = true)

/-- What running `run` in the instances chosen by `want` means: exactly these are run, each once,
with the output switch as asked for; the others and the rest of the module stay as they are; the
call succeeds if and only if no run fails, and then leaves no message; otherwise the messages
hold the error text of every instance that failed. The output of the runs that succeed, of the
instances whose flag is set, is added to the output. -/
structure Routed (eng : Engine σ) (want : Nat → Prop) (run : σ → Run σ) (s s' : RM σ) (r : Ret) :
    Prop where
  length : s'.insts.length = s.insts.length
  ran : ∀ n i, s.insts[n]? = some i → want n →
    ∃ i', s'.insts[n]? = some i' ∧ i'.chem = (run i.chem).chem ∧
      i'.saveSpecies = i.saveSpecies ∧
      (i'.outputStringOn = true ↔ Printing s.print s.nthreads n)
  kept : ∀ n i, s.insts[n]? = some i → ¬ want n → s'.insts[n]? = some i
  rest : s'.nthreads = s.nthreads ∧ s'.mode = s.mode ∧ s'.print = s.print ∧
    s'.databaseFile = s.databaseFile ∧ s'.speciesSaveOn = s.speciesSaveOn
  good : r = .value .ok ↔ ∀ n i, s.insts[n]? = some i → want n → ¬ (run i.chem).Fails
  code : r ≠ .value .ok → s.mode = 0 → r = .value .fail
  silent : r = .value .ok → s'.err = []
  told : ∀ n i, s.insts[n]? = some i → want n → (run i.chem).Fails →
    eng.errorString (run i.chem).chem ∈ s'.err
  out : ∃ ts, s'.out = s.out ++ ts ∧ ∀ t, t ∈ ts ↔ ∃ n i, want n ∧
    Printing s.print s.nthreads n ∧ s.insts[n]? = some i ∧ ¬ (run i.chem).Fails ∧
    t = eng.outputString (run i.chem).chem

/-- Instance `n` hands its output to `OutputMessage`. -/
def Prints (want : Nat → Prop) (run : σ → Run σ) (s : RM σ) (n : Nat) : Prop :=
  want n ∧ Printing s.print s.nthreads n ∧ ∃ i, s.insts[n]? = some i ∧ ¬ (run i.chem).Fails

/-! ## Lemmas -/

theorem select_iff (w i u : Bool) (N n : Nat) : select w i u N n = true ↔ Wanted w i u N n := by
  unfold select Wanted
  split_ifs with h1 h2 h3
  · constructor
    · exact fun h => Or.inl ⟨h1, h⟩
    · rintro (⟨_, h⟩ | ⟨h, _⟩ | ⟨h, _⟩)
      · exact h
      · omega
      · omega
  · constructor
    · exact fun h => Or.inr (Or.inl ⟨h2, h⟩)
    · rintro (⟨h, _⟩ | ⟨_, h⟩ | ⟨h, _⟩)
      · omega
      · exact h
      · omega
  · constructor
    · exact fun h => Or.inr (Or.inr ⟨h3, h⟩)
    · rintro (⟨h, _⟩ | ⟨h, _⟩ | ⟨_, h⟩)
      · omega
      · omega
      · exact h
  · constructor
    · exact fun h => (nomatch h)
    · rintro (⟨h, _⟩ | ⟨h, _⟩ | ⟨h, _⟩) <;> omega

theorem printFlag_iff (p : Bool × Bool × Bool) (N n : Nat) :
    printFlag p N n = true ↔ Printing p N n := by
  unfold printFlag Printing
  split_ifs with h1 h2
  · constructor
    · exact fun h => Or.inl ⟨h1, h⟩
    · rintro (⟨_, h⟩ | ⟨h, _⟩ | ⟨h, _⟩)
      · exact h
      · omega
      · omega
  · constructor
    · exact fun h => Or.inr (Or.inl ⟨h2, h⟩)
    · rintro (⟨h, _⟩ | ⟨_, h⟩ | ⟨h, _⟩)
      · omega
      · exact h
      · omega
  · constructor
    · exact fun h => Or.inr (Or.inr ⟨by omega, h⟩)
    · rintro (⟨h, _⟩ | ⟨h, _⟩ | ⟨_, h⟩)
      · omega
      · omega
      · exact h

theorem thread_facts (eng : Engine σ) (a : Bool) (run : σ → Run σ) (o : Bool) (what : String)
    (n : Nat) (i : Inst σ) :
    (thread eng a run o what n i).inst.chem = (run i.chem).chem ∧
    (thread eng a run o what n i).inst.saveSpecies = i.saveSpecies ∧
    (thread eng a run o what n i).inst.outputStringOn = o ∧
    ((thread eng a run o what n i).code ≠ 0 ↔ (run i.chem).Fails) ∧
    (¬ (run i.chem).Fails → (thread eng a run o what n i).err = []) ∧
    (thread eng a run o what n i).out =
      if o = true ∧ ¬ (run i.chem).Fails then [eng.outputString (run i.chem).chem] else [] := by
  unfold thread
  have hp : (i.prepare o).chem = i.chem := rfl
  simp only [hp]
  cases hr : run i.chem with
  | finished k c =>
    cases k with
    | zero =>
      refine ⟨rfl, rfl, rfl, ?_, fun _ => rfl, ?_⟩
      · simp [IRM.toInt, Run.Fails]
      · cases o <;> simp [Inst.prepare, Run.Fails, Run.chem]
    | succ k =>
      refine ⟨rfl, rfl, rfl, ?_, fun h => absurd (by simp [Run.Fails]) h, ?_⟩
      · simp [IRM.toInt, Run.Fails]
      · simp [Run.Fails]
  | threw c =>
    refine ⟨rfl, rfl, rfl, ?_, fun h => absurd (by simp [Run.Fails]) h, ?_⟩
    · simp [IRM.toInt, Run.Fails]
    · simp [Run.Fails]

theorem thread_prints (eng : Engine σ) (a : Bool) (run : σ → Run σ) (o : Bool) (what : String)
    (n : Nat) (i : Inst σ) :
    (thread eng a run o what n i).out ≠ [] ↔ o = true ∧ ¬ (run i.chem).Fails := by
  rw [(thread_facts eng a run o what n i).2.2.2.2.2]
  split
  · next h => exact ⟨fun _ => h, fun _ => by simp⟩
  · next h => exact ⟨fun h' => absurd rfl h', fun h' => absurd h' h⟩

theorem races_false {threads : Option (Nat → Nat)} {ns : List Nat}
    (h : ∀ f, threads = some f → ∀ n ∈ ns, ∀ m ∈ ns, f n = f m) : races threads ns = false := by
  cases threads with
  | none => rfl
  | some f =>
    simp only [races, List.any_eq_false, decide_eq_true_eq, ne_eq, Bool.not_eq_true]
    intro n hn m hm
    simpa using h f rfl n hn m hm

theorem races_true {f : Nat → Nat} {ns : List Nat} {n m : Nat} (hn : n ∈ ns) (hm : m ∈ ns)
    (h : f n ≠ f m) : races (some f) ns = true := by
  simp only [races, List.any_eq_true, decide_eq_true_eq]
  exact ⟨n, hn, m, hm, h⟩

theorem loop_ran {sel : Nat → Bool} {want : Nat → Prop} (hw : ∀ n, sel n = true ↔ want n)
    {order : List Nat} {s : RM σ} (hlen : s.insts.length = s.nthreads + 2)
    (hord : order.Perm (List.range (s.nthreads + 2))) (eng : Engine σ) (a : Bool)
    (run : σ → Run σ) (what : String) :
    ∃ l, order.foldlM (turn sel (fun n => thread eng a run (printFlag s.print s.nthreads n) what n))
        ⟨s.insts, List.replicate (s.nthreads + 2) 0, s.err, s.out, []⟩ = .ok l ∧
      l.insts.length = s.insts.length ∧ l.codes.length = s.insts.length ∧
      (∀ n i, s.insts[n]? = some i → l.insts[n]? = some
        (if sel n then (thread eng a run (printFlag s.print s.nthreads n) what n i).inst else i)) ∧
      (∀ n i, s.insts[n]? = some i → l.codes[n]? = some
        (if sel n then (thread eng a run (printFlag s.print s.nthreads n) what n i).code else 0)) ∧
      (∀ n, n ∈ l.printed ↔ Prints want run s n) ∧
      ((∀ n i, s.insts[n]? = some i → want n → ¬ (run i.chem).Fails) → l.err = s.err) ∧
      (∃ ts, l.out = s.out ++ ts ∧ ∀ t, t ∈ ts ↔ ∃ n i, want n ∧
        Printing s.print s.nthreads n ∧ s.insts[n]? = some i ∧ ¬ (run i.chem).Fails ∧
        t = eng.outputString (run i.chem).chem) := by
  have hmem : ∀ n, n ∈ order ↔ n < s.insts.length := by
    intro n
    rw [hord.mem_iff, List.mem_range, hlen]
  obtain ⟨l, h1, h2⟩ := foldlM_after sel
    (fun n => thread eng a run (printFlag s.print s.nthreads n) what n) order
    (hord.nodup_iff.mpr List.nodup_range)
    ⟨s.insts, List.replicate (s.nthreads + 2) 0, s.err, s.out, []⟩
    (fun n hn => (hmem n).mp hn)
  refine ⟨l, h1, h2.instsLen, ?_, ?_, ?_, ?_, ?_, _, h2.out, ?_⟩
  · rw [h2.codesLen]; simp [hlen]
  · intro n i hi
    have hn : n < s.insts.length := by
      by_contra h
      rw [List.getElem?_eq_none (by omega)] at hi
      cases hi
    rw [h2.insts n]
    cases hs : sel n <;> simp [hs, (hmem n).mpr hn, turnOf, hi]
  · intro n i hi
    have hn : n < s.insts.length := by
      by_contra h
      rw [List.getElem?_eq_none (by omega)] at hi
      cases hi
    rw [h2.codes n hn (by simp; omega)]
    cases hs : sel n
    · simp [← hlen, hn]
    · simp [(hmem n).mpr hn, turnOf, hi, hs]
  · intro n
    rw [h2.printed, List.nil_append, List.mem_filter, hmem]
    simp only [decide_eq_true_eq]
    constructor
    · rintro ⟨hn, ho⟩
      have hi : s.insts[n]? = some s.insts[n] := List.getElem?_eq_getElem hn
      cases hs : sel n with
      | false => simp [turnOf, hs] at ho
      | true =>
        simp only [turnOf, hs, if_true, hi, Option.map_some, Option.getD_some] at ho
        obtain ⟨h3, h4⟩ := (thread_prints eng a run _ what n s.insts[n]).mp ho
        exact ⟨(hw n).mp hs, (printFlag_iff ..).mp h3, _, hi, h4⟩
    · rintro ⟨hwn, hp, i, hi, hf⟩
      have hn : n < s.insts.length := by
        by_contra h
        rw [List.getElem?_eq_none (by omega)] at hi
        cases hi
      refine ⟨hn, ?_⟩
      simp only [turnOf, (hw n).mpr hwn, if_true, hi, Option.map_some, Option.getD_some]
      exact (thread_prints eng a run _ what n i).mpr ⟨(printFlag_iff ..).mpr hp, hf⟩
  · intro hall
    rw [h2.err]
    have : ∀ n ∈ order, ((turnOf sel
        (fun n => thread eng a run (printFlag s.print s.nthreads n) what n) s.insts n).map
        Turn.err).getD [] = [] := by
      intro n _
      cases hs : sel n with
      | false => simp [turnOf, hs]
      | true =>
        cases hi : s.insts[n]? with
        | none => simp [turnOf, hs, hi]
        | some i =>
          simp only [turnOf, hs, if_true, hi, Option.map_some, Option.getD_some]
          exact (thread_facts eng a run _ what n i).2.2.2.2.1 (hall n i hi ((hw n).mp hs))
    rw [List.flatMap_eq_nil_iff.mpr this, List.append_nil]
  · intro t
    rw [List.mem_flatMap]
    constructor
    · rintro ⟨n, hn, ht⟩
      cases hs : sel n with
      | false => simp [turnOf, hs] at ht
      | true =>
        cases hi : s.insts[n]? with
        | none => simp [turnOf, hs, hi] at ht
        | some i =>
          simp only [turnOf, hs, if_true, hi, Option.map_some, Option.getD_some,
            (thread_facts eng a run _ what n i).2.2.2.2.2] at ht
          split at ht
          · next h =>
            exact ⟨n, i, (hw n).mp hs, (printFlag_iff ..).mp h.1, hi, h.2, by simpa using ht⟩
          · cases ht
    · rintro ⟨n, i, hwn, hp, hi, hf, rfl⟩
      have hn : n < s.insts.length := by
        by_contra h
        rw [List.getElem?_eq_none (by omega)] at hi
        cases hi
      refine ⟨n, (hmem n).mpr hn, ?_⟩
      simp only [turnOf, (hw n).mpr hwn, if_true, hi, Option.map_some, Option.getD_some,
        (thread_facts eng a run _ what n i).2.2.2.2.2]
      rw [if_pos ⟨(printFlag_iff ..).mpr hp, hf⟩]
      exact List.mem_singleton_self _

theorem returnHandler_ok (mode : Int) (e : List String) (name : String) :
    returnHandler mode e .ok name = (e, .value .ok) := by
  simp [returnHandler, IRM.toInt]

theorem returnHandler_fail (mode : Int) (e : List String) (name : String) :
    (returnHandler mode e .fail name).2 ≠ .value .ok ∧
    (mode = 0 → (returnHandler mode e .fail name).2 = .value .fail) ∧
    ∀ t ∈ e, t ∈ (returnHandler mode e .fail name).1 := by
  unfold returnHandler
  rw [if_pos (by decide)]
  refine ⟨?_, ?_, ?_⟩
  · dsimp only
    split_ifs <;> simp
  · rintro rfl
    simp
  · intro t ht
    simp [say, decodeError, ht]

theorem runAll_routed {sel : Nat → Bool} {want : Nat → Prop} (hw : ∀ n, sel n = true ↔ want n)
    (threads : Option (Nat → Nat)) {order : List Nat} {s : RM σ}
    (hlen : s.insts.length = s.nthreads + 2) (herr : s.err = [])
    (hord : order.Perm (List.range (s.nthreads + 2))) (eng : Engine σ) (a : Bool)
    (run : σ → Run σ) (what name : String)
    (hrace : ∀ f, threads = some f → ∀ n m, Prints want run s n → Prints want run s m → f n = f m) :
    ∃ s' r, runAll eng threads order sel
        (fun n => thread eng a run (printFlag s.print s.nthreads n) what n) name s = .ok (s', r) ∧
      Routed eng want run s s' r ∧ s'.chemistryFile = s.chemistryFile := by
  obtain ⟨l, h1, hil, hcl, hi, hc, hp, he, ho⟩ := loop_ran hw hlen hord eng a run what
  obtain ⟨msgs, hm, hmem⟩ := errorMessages_ok eng l.insts l.codes 0 (by omega)
  have hr : races threads l.printed = false :=
    races_false (fun f hf n hn m hm => hrace f hf n m ((hp n).mp hn) ((hp m).mp hm))
  have hloop : loop threads order sel
      (fun n => thread eng a run (printFlag s.print s.nthreads n) what n)
      ⟨s.insts, List.replicate (s.nthreads + 2) 0, s.err, s.out, []⟩ = .ok l := by
    rw [loop, h1, Out.ok_bind, hr]
    rfl
  have hbad : (l.codes.any (· ≠ 0)) = true ↔
      ¬ ∀ n i, s.insts[n]? = some i → want n → ¬ (run i.chem).Fails := by
    rw [List.any_eq_true]
    constructor
    · rintro ⟨c, hcm, h0⟩ hall
      obtain ⟨n, hn, rfl⟩ := List.getElem_of_mem hcm
      have hin : s.insts[n]? = some (s.insts[n]'(by omega)) :=
        List.getElem?_eq_getElem (by omega)
      have h3 := hc n _ hin
      rw [List.getElem?_eq_getElem hn, Option.some.injEq] at h3
      rw [h3] at h0
      cases hs : sel n with
      | false => simp [hs] at h0
      | true =>
        simp only [hs, if_true, ne_eq, decide_not, Bool.not_eq_eq_eq_not, Bool.not_true,
          decide_eq_false_iff_not] at h0
        exact hall n _ hin ((hw n).mp hs) ((thread_facts eng a run _ what n _).2.2.2.1.mp h0)
    · intro hall
      by_contra hno
      refine hall ?_
      intro n i hin hwn hf
      refine hno ⟨_, List.mem_of_getElem? (hc n i hin), ?_⟩
      rw [if_pos ((hw n).mpr hwn)]
      simpa using (thread_facts eng a run (printFlag s.print s.nthreads n) what n i).2.2.2.1.mpr hf
  refine ⟨{ s with insts := l.insts, out := l.out
                   err := (returnHandler s.mode (l.err ++ msgs)
                    (if l.codes.any (· ≠ 0) then .fail else .ok) name).1 },
    (returnHandler s.mode (l.err ++ msgs) (if l.codes.any (· ≠ 0) then .fail else .ok) name).2,
    ?_, ?_, ?_⟩
  · unfold runAll
    rw [hloop, Out.ok_bind, hm, Out.ok_bind]
  · constructor
    · exact hil
    · intro n i hin hwn
      refine ⟨_, hi n i hin, ?_⟩
      rw [if_pos ((hw n).mpr hwn)]
      obtain ⟨f1, f2, f3, _⟩ := thread_facts eng a run (printFlag s.print s.nthreads n) what n i
      exact ⟨f1, f2, by rw [f3]; exact printFlag_iff ..⟩
    · intro n i hin hwn
      dsimp only
      rw [hi n i hin, if_neg (fun h => hwn ((hw n).mp h))]
    · exact ⟨rfl, rfl, rfl, rfl, rfl⟩
    · cases hb : l.codes.any (· ≠ 0) with
      | false =>
        simp only [Bool.false_eq_true, if_false, returnHandler_ok, true_iff]
        by_contra h
        rw [hbad.mpr h] at hb
        cases hb
      | true =>
        simp only [if_true, (returnHandler_fail _ _ _).1, false_iff]
        exact hbad.mp hb
    · intro hne h0
      cases hb : l.codes.any (· ≠ 0) with
      | false => rw [hb] at hne; exact absurd (by simp [returnHandler_ok]) hne
      | true => simpa using (returnHandler_fail _ _ _).2.1 h0
    · intro hok
      dsimp only
      cases hb : l.codes.any (· ≠ 0) with
      | true =>
        rw [hb] at hok
        exact absurd hok (by simpa using (returnHandler_fail _ _ _).1)
      | false =>
        have hall : ∀ n i, s.insts[n]? = some i → want n → ¬ (run i.chem).Fails := by
          by_contra h
          rw [hbad.mpr h] at hb
          cases hb
        simp only [Bool.false_eq_true, if_false, returnHandler_ok]
        rw [he hall, herr, List.nil_append]
        refine List.eq_nil_iff_forall_not_mem.mpr ?_
        intro t ht
        obtain ⟨n, c, i, hcn, h0, _⟩ := (hmem t).mp ht
        rw [List.any_eq_false] at hb
        exact hb c (List.mem_of_getElem? hcn) (by simpa using h0)
    · intro n i hin hwn hf
      dsimp only
      have hb : l.codes.any (· ≠ 0) = true := hbad.mpr (fun h => h n i hin hwn hf)
      rw [if_pos hb]
      refine (returnHandler_fail _ _ _).2.2 _ (List.mem_append_right _ ((hmem _).mpr ?_))
      refine ⟨n, _, _, hc n i hin, ?_, by rw [Nat.zero_add]; exact hi n i hin, ?_⟩
      · rw [if_pos ((hw n).mpr hwn)]
        exact (thread_facts eng a run (printFlag s.print s.nthreads n) what n i).2.2.2.1.mpr hf
      · rw [if_pos ((hw n).mpr hwn), (thread_facts eng a run _ what n i).1]
    · exact ho
  · rfl

/-! ## C62 -/

theorem cstr_eq {t : Str} (h : nul ∉ t) : cstr t = t := by
  induction t with
  | nil => rfl
  | cons c cs ih =>
    simp only [List.mem_cons, not_or] at h
    have hc : c ≠ nul := fun e => h.1 e.symm
    unfold cstr at ih ⊢
    rw [List.takeWhile_cons_of_pos (by simpa using hc), ih h.2]

/-- C62 (partial). For every number of workers, all flags, every behaviour of PHREEQC, every input
without NUL and every order of the turns: the input is run in exactly the chosen instances, and the
call fails if and only if one of these runs fails. Missing: inputs with a NUL (`nul_violated`), and
several threads printing at once (`print_race_violated`). -/
theorem runString_partial (eng : Engine σ) (threads : Option (Nat → Nat)) (order : List Nat)
    (workers initial utility : Bool) (input : Str) (s : RM σ)
    (hlen : s.insts.length = s.nthreads + 2)
    (hord : order.Perm (List.range (s.nthreads + 2))) (hnul : nul ∉ input)
    (hrace : ∀ f, threads = some f → ∀ n m,
      Prints (Wanted workers initial utility s.nthreads) (fun c => eng.runString c input) s n →
      Prints (Wanted workers initial utility s.nthreads) (fun c => eng.runString c input) s m →
      f n = f m) :
    ∃ s' r, runString eng threads order workers initial utility input s = .ok (s', r) ∧
      Routed eng (Wanted workers initial utility s.nthreads)
        (fun c => eng.runString c input) s s' r ∧
      s'.chemistryFile = s.chemistryFile := by
  obtain ⟨s', r, h1, h2, h3⟩ := runAll_routed (s := { s with err := [] })
    (select_iff workers initial utility s.nthreads) threads hlen rfl hord eng true
    (fun c => eng.runString c input) "RunString" "PhreeqcRM::RunString" hrace
  refine ⟨s', r, ?_, ?_, h3⟩
  · unfold runString
    rw [cstr_eq hnul]
    exact h1
  · exact ⟨h2.length, h2.ran, h2.kept, h2.rest, h2.good, h2.code, h2.silent, h2.told, h2.out⟩

/-- C62 fails for an input with a NUL: what follows the NUL is not run, whatever it is, and no
error is reported for it. -/
theorem nul_violated (eng : Engine σ) (threads : Option (Nat → Nat)) (order : List Nat)
    (workers initial utility : Bool) (a b : Str) (s : RM σ) :
    runString eng threads order workers initial utility (a ++ nul :: b) s =
      runString eng threads order workers initial utility a s := by
  have : cstr (a ++ nul :: b) = cstr a := by
    unfold cstr
    induction a with
    | nil => simp
    | cons c cs ih =>
      by_cases hc : c = nul
      · simp [hc]
      · rw [List.cons_append, List.takeWhile_cons_of_pos (by simpa using hc),
          List.takeWhile_cons_of_pos (by simpa using hc), ih]
  unfold runString
  rw [this]

/-- C62 fails in an OpenMP build when the turns of two instances that print belong to different
threads: both write to the output file without a lock. -/
theorem print_race_violated (eng : Engine σ) (f : Nat → Nat) (order : List Nat)
    (workers initial utility : Bool) (input : Str) (s : RM σ)
    (hlen : s.insts.length = s.nthreads + 2)
    (hord : order.Perm (List.range (s.nthreads + 2))) (hnul : nul ∉ input) (n m : Nat)
    (hn : Prints (Wanted workers initial utility s.nthreads) (fun c => eng.runString c input) s n)
    (hm : Prints (Wanted workers initial utility s.nthreads) (fun c => eng.runString c input) s m)
    (hf : f n ≠ f m) :
    runString eng (some f) order workers initial utility input s = .ub := by
  obtain ⟨l, h1, _, _, _, _, hp, _⟩ := loop_ran (s := { s with err := [] })
    (select_iff workers initial utility s.nthreads) hlen hord eng true
    (fun c => eng.runString c input) "RunString"
  unfold runString runAll
  rw [cstr_eq hnul]
  unfold loop
  rw [h1, Out.ok_bind, races_true ((hp n).mpr hn) ((hp m).mpr hm) hf]
  rfl

/-! ## C111: RunFile -/

/-- C111 (partial). For every file name without NUL that is not empty: the same for `RunFile`, and
the name of the file is remembered. Missing: the empty name (`empty_file_violated`). -/
theorem runFile_partial (eng : Engine σ) (threads : Option (Nat → Nat)) (order : List Nat)
    (workers initial utility : Bool) (name : Str) (s : RM σ)
    (hlen : s.insts.length = s.nthreads + 2)
    (hord : order.Perm (List.range (s.nthreads + 2))) (hnul : nul ∉ name) (hne : name ≠ [])
    (hrace : ∀ f, threads = some f → ∀ n m,
      Prints (Wanted workers initial utility s.nthreads) (fun c => eng.runFile c name) s n →
      Prints (Wanted workers initial utility s.nthreads) (fun c => eng.runFile c name) s m →
      f n = f m) :
    ∃ s' r, runFile eng threads order workers initial utility name s = .ok (s', r) ∧
      Routed eng (Wanted workers initial utility s.nthreads)
        (fun c => eng.runFile c name) s s' r ∧
      s'.chemistryFile = name := by
  obtain ⟨s', r, h1, h2, h3⟩ := runAll_routed (s := { s with err := [], chemistryFile := name })
    (select_iff workers initial utility s.nthreads) threads hlen rfl hord eng false
    (fun c => eng.runFile c name) "RunFile" "PhreeqcRM::RunFile" hrace
  refine ⟨s', r, ?_, ?_, h3⟩
  · unfold runFile setChemistryFileName
    simp only [if_neg hne, returnHandler_ok]
    rw [cstr_eq hnul]
    exact h1
  · exact ⟨h2.length, h2.ran, h2.kept, h2.rest, h2.good, h2.code, h2.silent, h2.told, h2.out⟩

/-- C111 fails for the empty name in error mode 0: it is refused by `SetChemistryFileName`, but
the refusal is ignored, and without a chosen instance the call reports success. -/
theorem empty_file_violated (eng : Engine σ) (threads : Option (Nat → Nat)) (order : List Nat)
    (s : RM σ) (hlen : s.insts.length = s.nthreads + 2) (h0 : s.mode = 0)
    (hord : order.Perm (List.range (s.nthreads + 2))) :
    (setChemistryFileName s []).2 = .value .invalidArg ∧
    ∃ s', runFile eng threads order false false false [] s = .ok (s', .value .ok) := by
  have hset : (setChemistryFileName s []).2 = .value .invalidArg := by
    unfold setChemistryFileName
    simp [returnHandler, h0, IRM.toInt]
  refine ⟨hset, ?_⟩
  have hnone : ∀ n, ¬ Wanted false false false s.nthreads n := by
    intro n
    simp [Wanted]
  have hsel : ∀ n, select false false false s.nthreads n = false := by
    intro n
    cases h : select false false false s.nthreads n with
    | false => rfl
    | true => exact absurd ((select_iff ..).mp h) (hnone n)
  unfold runFile
  generalize hs1 : setChemistryFileName s [] = p at hset ⊢
  obtain ⟨s1, r1⟩ := p
  simp only at hset
  subst hset
  have hs1' : s1 = (setChemistryFileName s []).1 := by rw [hs1]
  have e1 : s1.nthreads = s.nthreads := by rw [hs1']; rfl
  have e2 : s1.insts = s.insts := by rw [hs1']; rfl
  dsimp only
  obtain ⟨l, h1, hil, hcl, hi, hc, hp, he, ho⟩ := loop_ran (s := s1) (order := order) (want := fun _ => False)
    (sel := select false false false s1.nthreads)
    (by intro n; rw [e1, hsel n]; simp) (by rw [e1, e2]; exact hlen)
    (by rw [e1]; exact hord) eng false (fun c => eng.runFile c (cstr s1.chemistryFile)) "RunFile"
  have hr : races threads l.printed = false := by
    refine races_false (fun f _ n hn => ?_)
    exact absurd ((hp n).mp hn).1 (fun h => h)
  have hz : ∀ c ∈ l.codes, c = 0 := by
    intro c hcm
    obtain ⟨n, hn, rfl⟩ := List.getElem_of_mem hcm
    have hin : s1.insts[n]? = some (s1.insts[n]'(by omega)) := List.getElem?_eq_getElem (by omega)
    have h3 := hc n _ hin
    rw [e1, hsel n, List.getElem?_eq_getElem hn] at h3
    simpa using h3
  obtain ⟨msgs, hm, hmem⟩ := errorMessages_ok eng l.insts l.codes 0 (by omega)
  have hany : l.codes.any (· ≠ 0) = false := by
    rw [List.any_eq_false]
    intro c hcm
    rw [hz c hcm]
    simp
  refine ⟨{ s1 with insts := l.insts, err := l.err ++ msgs, out := l.out }, ?_⟩
  unfold runAll loop
  rw [h1, Out.ok_bind, hr]
  simp only [Bool.false_eq_true, if_false, Out.ok_bind, hm, hany, returnHandler_ok]

/-! ## C112: LoadDatabase -/

/-- What loading one instance leaves behind. -/
def loadedInst (run : σ → Run σ) (i : Inst σ) : Inst σ :=
  { i with chem := (run i.chem).chem, saveSpecies := false }

/-- The number of errors of a load; exceptions have none. -/
def Run.errors : Run σ → Int
  | .finished n _ => n
  | .threw _ => 0

theorem loadLoop_ok (eng : Engine σ) (file : Str) (insts : List (Inst σ))
    (hex : ∀ i ∈ insts, ∀ c, eng.loadDatabase i.chem (cstr file) ≠ .threw c) :
    loadLoop eng file insts =
      (insts.map (loadedInst (fun c => eng.loadDatabase c (cstr file))),
        insts.map (fun i => (eng.loadDatabase i.chem (cstr file)).errors), false) := by
  induction insts with
  | nil => rfl
  | cons i is ih =>
    have ih := ih (fun j hj => hex j (List.mem_cons_of_mem _ hj))
    have hi := hex i List.mem_cons_self
    rw [loadLoop]
    cases h : eng.loadDatabase i.chem (cstr file) with
    | threw c => exact absurd h (hi c)
    | finished n c => simp [ih, loadedInst, h, Run.chem, Run.errors]

theorem loadLoop_threw (eng : Engine σ) (file : Str) (pre post : List (Inst σ)) (i : Inst σ) (c : σ)
    (hex : ∀ i ∈ pre, ∀ c, eng.loadDatabase i.chem (cstr file) ≠ .threw c)
    (hi : eng.loadDatabase i.chem (cstr file) = .threw c) :
    ∃ codes, loadLoop eng file (pre ++ i :: post) =
      (pre.map (loadedInst (fun c => eng.loadDatabase c (cstr file))) ++
        { i with chem := c, saveSpecies := false } :: post, codes, true) := by
  induction pre with
  | nil =>
    refine ⟨[], ?_⟩
    rw [List.nil_append, loadLoop, hi]
    rfl
  | cons j js ih =>
    obtain ⟨codes, ih⟩ := ih (fun j hj => hex j (List.mem_cons_of_mem _ hj))
    have hj := hex j List.mem_cons_self
    rw [List.cons_append, loadLoop]
    cases h : eng.loadDatabase j.chem (cstr file) with
    | threw c => exact absurd h (hj c)
    | finished n c => exact ⟨(n : Int) :: codes, by simp [ih, loadedInst, h, Run.chem]⟩

theorem loadEnd_insts (r : IRM) (s : RM σ) (n : Nat) : (loadEnd r s).1.insts[n]? =
    (s.insts[n]?).map (fun i =>
      if n < s.nthreads + 1 then { i with saveSpecies := s.speciesSaveOn } else i) := by
  simp [loadEnd, setSaveSpecies]

/-- C112 (partial). For every non-empty name and every behaviour of PHREEQC without exceptions:
the database is loaded in every instance, the saving of species concentrations is set again for the
workers and InitialPhreeqc, and the call fails if and only if one of the loads fails, giving the
error text of each of these. Missing: exceptions (`load_exception_violated`). -/
theorem loadDatabase_partial (eng : Engine σ) (name : Str) (s : RM σ)
    (hlen : s.insts.length = s.nthreads + 2) (hne : name ≠ []) (hnul : nul ∉ name)
    (hex : ∀ i ∈ s.insts, ∀ c, eng.loadDatabase i.chem name ≠ .threw c) :
    ∃ s' r, loadDatabase eng name s = .ok (s', r) ∧ s'.databaseFile = name ∧
      s'.insts.length = s.insts.length ∧
      (∀ n i, s.insts[n]? = some i → ∃ i', s'.insts[n]? = some i' ∧
        i'.chem = (eng.loadDatabase i.chem name).chem ∧
        (n ≤ s.nthreads → i'.saveSpecies = s.speciesSaveOn)) ∧
      (r = .value .ok ↔ ∀ i ∈ s.insts, ¬ (eng.loadDatabase i.chem name).Fails) ∧
      (r ≠ .value .ok → s.mode = 0 → r = .value .fail) ∧
      (r = .value .ok → s'.err = []) ∧
      (∀ i ∈ s.insts, (eng.loadDatabase i.chem name).Fails →
        eng.errorString (eng.loadDatabase i.chem name).chem ∈ s'.err) := by
  have hl := loadLoop_ok eng name s.insts (by rw [cstr_eq hnul]; exact hex)
  rw [cstr_eq hnul] at hl
  obtain ⟨msgs, hm, hmem⟩ := errorMessages_ok eng
    (s.insts.map (loadedInst (fun c => eng.loadDatabase c name)))
    (s.insts.map (fun i => (eng.loadDatabase i.chem name).errors)) 0 (by simp)
  have herr : ∀ i ∈ s.insts, (eng.loadDatabase i.chem name).errors ≠ 0 ↔
      (eng.loadDatabase i.chem name).Fails := by
    intro i hi
    cases h : eng.loadDatabase i.chem name with
    | threw c => exact absurd h (hex i hi c)
    | finished n c => simp [Run.errors, Run.Fails]
  have hany : ((s.insts.map (fun i => (eng.loadDatabase i.chem name).errors)).any (· ≠ 0)) = true ↔
      ¬ ∀ i ∈ s.insts, ¬ (eng.loadDatabase i.chem name).Fails := by
    rw [List.any_eq_true]
    constructor
    · rintro ⟨c, hc, h0⟩ hall
      obtain ⟨i, hi, rfl⟩ := List.mem_map.mp hc
      exact hall i hi ((herr i hi).mp (by simpa using h0))
    · intro h
      by_contra hno
      refine h (fun i hi hf => hno ⟨_, List.mem_map.mpr ⟨i, hi, rfl⟩, ?_⟩)
      simpa using (herr i hi).mpr hf
  generalize hb : ((s.insts.map (fun i => (eng.loadDatabase i.chem name).errors)).any
    (· ≠ 0)) = b at hany
  have hrun : loadDatabase eng name s = .ok (loadEnd (if b then .fail else .ok)
      { s with databaseFile := name, err := msgs
               insts := s.insts.map (loadedInst (fun c => eng.loadDatabase c name)) }) := by
    unfold loadDatabase
    simp only [if_neg hne, returnHandler_ok]
    rw [if_neg (by simp), if_neg (by simp [hlen])]
    simp only [hl, hm, hb, Out.ok_bind, List.nil_append, Bool.false_eq_true, if_false]
  refine ⟨(loadEnd _ _).1, (loadEnd _ _).2, hrun, rfl, ?_, ?_, ?_, ?_, ?_, ?_⟩
  · simp [loadEnd, setSaveSpecies]
  · intro n i hi
    rw [loadEnd_insts]
    simp only [List.getElem?_map, hi, Option.map_some]
    refine ⟨_, rfl, ?_, ?_⟩
    · split <;> rfl
    · intro hn
      rw [if_pos (by omega)]
  · cases b with
    | true =>
      have := (returnHandler_fail s.mode msgs "PhreeqcRM::LoadDatabase").1
      simp only [if_true, loadEnd, setSaveSpecies, this, false_iff]
      exact hany.mp rfl
    | false =>
      simp only [Bool.false_eq_true, if_false, loadEnd, setSaveSpecies, returnHandler_ok, true_iff]
      by_contra h
      exact absurd (hany.mpr h) (by simp)
  · intro h h0
    cases b with
    | true => exact (returnHandler_fail s.mode msgs "PhreeqcRM::LoadDatabase").2.1 h0
    | false => exact absurd (by simp [loadEnd, setSaveSpecies, returnHandler_ok]) h
  · intro h
    cases b with
    | true => exact absurd h (returnHandler_fail s.mode msgs "PhreeqcRM::LoadDatabase").1
    | false =>
      simp only [Bool.false_eq_true, if_false, loadEnd, setSaveSpecies, returnHandler_ok]
      refine List.eq_nil_iff_forall_not_mem.mpr ?_
      intro t ht
      obtain ⟨n, c, i, hcn, h0, _⟩ := (hmem t).mp ht
      rw [List.any_eq_false] at hb
      exact hb c (List.mem_of_getElem? hcn) (by simpa using h0)
  · intro i hi hf
    have hbt : b = true := hany.mpr (fun h => h i hi hf)
    subst hbt
    refine (returnHandler_fail s.mode msgs "PhreeqcRM::LoadDatabase").2.2 _ ((hmem _).mpr ?_)
    obtain ⟨n, hn, rfl⟩ := List.getElem_of_mem hi
    refine ⟨n, _, loadedInst (fun c => eng.loadDatabase c name) s.insts[n], ?_,
      (herr _ hi).mpr hf, ?_, rfl⟩
    · simp [hn]
    · simp only [Nat.zero_add, List.getElem?_map, List.getElem?_eq_getElem hn, Option.map_some]

/-- C112 fails when the load of an instance ends with an exception: the instances after it are not
loaded and keep the chemistry they had (the failure is reported). -/
theorem load_exception_violated (eng : Engine σ) (name : Str) (s : RM σ)
    (hlen : s.insts.length = s.nthreads + 2) (hne : name ≠ []) (hnul : nul ∉ name)
    (pre post : List (Inst σ)) (i : Inst σ) (c : σ) (hs : s.insts = pre ++ i :: post)
    (hex : ∀ i ∈ pre, ∀ c, eng.loadDatabase i.chem name ≠ .threw c)
    (hi : eng.loadDatabase i.chem name = .threw c) :
    ∃ s' r, loadDatabase eng name s = .ok (s', r) ∧ r ≠ .value .ok ∧
      ∀ k i, post[k]? = some i → ∃ i', s'.insts[pre.length + 1 + k]? = some i' ∧
        i'.chem = i.chem := by
  obtain ⟨codes, hl⟩ := loadLoop_threw eng name pre post i c
    (by rw [cstr_eq hnul]; exact hex) (by rw [cstr_eq hnul]; exact hi)
  have hrun : loadDatabase eng name s = .ok (loadEnd .fail
      { s with databaseFile := name, err := []
               insts := pre.map (loadedInst (fun c => eng.loadDatabase c (cstr name))) ++
                { i with chem := c, saveSpecies := false } :: post }) := by
    unfold loadDatabase
    simp only [if_neg hne, returnHandler_ok]
    rw [if_neg (by simp), if_neg (by simp [hlen])]
    simp only [hs, hl, if_true]
  rw [hrun]
  refine ⟨_, _, rfl, ?_, ?_⟩
  · exact (returnHandler_fail s.mode [] "PhreeqcRM::LoadDatabase").1
  · intro k j hj
    have h2 := loadEnd_insts .fail
      { s with databaseFile := name, err := []
               insts := pre.map (loadedInst (fun c => eng.loadDatabase c (cstr name))) ++
                { i with chem := c, saveSpecies := false } :: post } (pre.length + 1 + k)
    have : (pre.map (loadedInst (fun c => eng.loadDatabase c (cstr name))) ++
        { i with chem := c, saveSpecies := false } :: post)[pre.length + 1 + k]? = some j := by
      rw [List.getElem?_append_right (by simp; omega)]
      simp only [List.length_map]
      rw [show pre.length + 1 + k - pre.length = k + 1 by omega]
      simpa using hj
    simp only [this, Option.map_some] at h2
    refine ⟨_, h2, ?_⟩
    split <;> rfl

/-- The empty name is refused and no instance is touched, in every error mode that returns. -/
theorem load_empty (eng : Engine σ) (s : RM σ) (hlen : s.insts.length = s.nthreads + 2) :
    ∃ s' r, loadDatabase eng [] s = .ok (s', r) ∧ r ≠ .value .ok ∧
      (s.mode = 0 → r = .value .fail) ∧
      ∀ (n : Nat) (i : Inst σ), s.insts[n]? = some i → ∃ i', s'.insts[n]? = some i' ∧ i'.chem = i.chem := by
  have keep : ∀ (r : IRM) (t : RM σ), t.insts = s.insts → ∀ (n : Nat) (i : Inst σ), s.insts[n]? = some i →
      ∃ i', (loadEnd r t).1.insts[n]? = some i' ∧ i'.chem = i.chem := by
    intro r t ht n i hi
    rw [loadEnd_insts, ht, hi]
    refine ⟨_, rfl, ?_⟩
    split <;> rfl
  have hr : (returnHandler s.mode [] .invalidArg "PhreeqcRM::SetDatabaseFileName").2 =
      if s.mode = 0 then .value .invalidArg else if s.mode = 1 then .threw
      else if s.mode = 2 then .exited (-3) else .value .invalidArg := by
    unfold returnHandler
    rw [if_pos (by decide)]
    rfl
  have value : ∀ msgs0 : List String,
      ∃ s' r, (do
        let msgs ← errorMessages eng s.insts 0 [IRM.invalidArg.toInt]
        Out.ok (loadEnd .fail { s with databaseFile := [], err := msgs0 ++ msgs })) = .ok (s', r) ∧
      r ≠ .value .ok ∧ (s.mode = 0 → r = .value .fail) ∧
      ∀ (n : Nat) (i : Inst σ), s.insts[n]? = some i → ∃ i', s'.insts[n]? = some i' ∧ i'.chem = i.chem := by
    intro msgs0
    obtain ⟨msgs, hm, _⟩ := errorMessages_ok eng s.insts [IRM.invalidArg.toInt] 0
      (by simp only [List.length_singleton]; omega)
    rw [hm]
    exact ⟨_, _, rfl, (returnHandler_fail s.mode _ "PhreeqcRM::LoadDatabase").1,
      fun h => (returnHandler_fail s.mode _ "PhreeqcRM::LoadDatabase").2.1 h,
      keep .fail { s with databaseFile := [], err := msgs0 ++ msgs } rfl⟩
  unfold loadDatabase
  simp only [if_true, hr]
  by_cases h0 : s.mode = 0
  · rw [if_pos h0]
    exact value _
  · by_cases h1 : s.mode = 1
    · rw [if_neg h0, if_pos h1]
      exact ⟨_, _, rfl, (returnHandler_fail s.mode _ "PhreeqcRM::LoadDatabase").1,
        fun h => absurd h h0, keep .fail _ rfl⟩
    · by_cases h2 : s.mode = 2
      · rw [if_neg h0, if_neg h1, if_pos h2]
        exact ⟨_, _, rfl, by simp, fun h => absurd h h0, fun n i hi => ⟨i, hi, rfl⟩⟩
      · rw [if_neg h0, if_neg h1, if_neg h2]
        exact value _

end Verif.Routing
