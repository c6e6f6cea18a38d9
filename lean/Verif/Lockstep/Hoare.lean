import Verif.Lockstep.Cells

/-!
# Lemmas: functions that all finish or all throw
-/

namespace Verif.Lockstep

open Spec

variable {n : Nat} {χ α β σ : Type} {E : Engine χ}

/-- The functions all return or all throw. -/
inductive Fin' (n : Nat) (m : Nat → M σ α) (s : Nat → σ) (Q : (Nat → α) → (Nat → σ) → Prop)
    (T : (Nat → σ) → Prop) : Prop
  | ok (a : Nat → α) (s' : Nat → σ) (h : Tog n m s (fun p => .ok (a p)) s') (q : Q a s')
  | threw (s' : Nat → σ) (h : Tog n m s (fun _ => .threw) s') (t : T s')

namespace Fin'

variable {m m' : Nat → M σ α} {f : Nat → α → M σ β} {s s1 : Nat → σ}
  {Q Q1 : (Nat → α) → (Nat → σ) → Prop} {Q' : (Nat → β) → (Nat → σ) → Prop}
  {T T' T1 : (Nat → σ) → Prop}

theorem bind (h : Fin' n m s Q T)
    (k : ∀ a s1, Q a s1 → Fin' n (fun p => f p (a p)) s1 Q' T) :
    Fin' n (fun p => M.bind (m p) (f p)) s Q' T := by
  cases h with
  | ok a s1 h q =>
    cases k a s1 q with
    | ok b s2 h2 q2 => exact .ok b s2 (h.bind h2) q2
    | threw s2 h2 t2 => exact .threw s2 (h.bind h2) t2
  | threw s1 h t => exact .threw s1 h.bind_threw t

theorem handle (h : Fin' n m s Q T) (k : ∀ s1, T s1 → Fin' n m' s1 Q T') :
    Fin' n (fun p => M.tryCatch (m p) (m' p)) s Q T' := by
  cases h with
  | ok a s1 h q => exact .ok a s1 h.catch_ok q
  | threw s1 h t =>
    cases k s1 t with
    | ok b s2 h2 q2 => exact .ok b s2 (h.catch_threw h2) q2
    | threw s2 h2 t2 => exact .threw s2 (h.catch_threw h2) t2

theorem mono (h : Fin' n m s Q T) (hq : ∀ a s', Q a s' → Q1 a s') (ht : ∀ s', T s' → T1 s') :
    Fin' n m s Q1 T1 := by
  cases h with
  | ok a s1 h q => exact .ok a s1 h (hq a s1 q)
  | threw s1 h t => exact .threw s1 h (ht s1 t)

theorem congr (h : Fin' n m s Q T) (he : ∀ p < n, m' p (s1 p) = m p (s p)) :
    Fin' n m' s1 Q T := by
  cases h with
  | ok a s2 h q => exact .ok a s2 (h.congr he) q
  | threw s2 h t => exact .threw s2 (h.congr he) t

theorem get_bind {f : Nat → σ → M σ β} (h : Fin' n (fun p => f p (s p)) s Q' T) :
    Fin' n (fun p => M.bind M.get (f p)) s Q' T := h.congr (fun _ _ => rfl)

theorem modify_bind {g : Nat → σ → σ} {f : Nat → Unit → M σ β}
    (h : Fin' n (fun p => f p ()) (fun p => g p (s p)) Q' T) :
    Fin' n (fun p => M.bind (M.modify (g p)) (f p)) s Q' T := h.congr (fun _ _ => rfl)

theorem of_tog {a : Nat → α} (h : Tog n m s (fun p => .ok (a p)) s1) (q : Q a s1) : Fin' n m s Q T :=
  .ok a s1 h q

theorem pure {a : Nat → α} (q : Q a s) : Fin' n (fun p => M.pure (a p)) s Q T :=
  .ok a s (Tog.loc (fun _ _ => rfl)) q

theorem throw (t : T s) : Fin' n (fun _ => (M.throw : M σ α)) s Q T :=
  .threw s (Tog.loc (fun _ _ => rfl)) t

/-- A loop whose every round keeps a relation to the start. -/
theorem loop (I : (Nat → σ) → Prop) {l : List Nat} (body : Nat → Nat → M σ Unit)
    (h : ∀ i ∈ l, ∀ s, I s → Fin' n (fun p => body p i) s (fun _ => I) T) :
    ∀ s, I s → Fin' n (fun p => M.loop l (body p)) s (fun _ => I) T := by
  induction l with
  | nil => intro s hs; exact Fin'.pure (a := fun _ => ()) hs
  | cons i l ih =>
    intro s hs
    exact bind (Q := fun _ => I) (h i (by simp) s hs)
      (fun _ s1 h1 => ih (fun j hj => h j (by simp [hj])) s1 h1)

end Fin'

/-- Two processes exchange a message. -/
theorem Together.exchange {P : Nat → Prog β} {R : Nat → β} {p q : Nat} {v : Val} {ty : Ty} {c : Nat}
    {k : Prog β} {k' : Val → Prog β} (hp : p < n) (hq : q < n) (hs : P p = .send q v k)
    (hr : P q = .recv p ty c k') (hf : v.Fits ty c)
    (t : Together n (fun j => if j = p then k else if j = q then k' v else P j) R) :
    Together n P R := by
  refine .rdv hp hq hs hr hf (t.congr ?_)
  intro j hj
  have hne : q ≠ p := by rintro rfl; rw [hs] at hr; cases hr
  by_cases h1 : j = q
  · subst h1; simp [hne]
  · by_cases h2 : j = p
    · subst h2; simp [Function.update_of_ne h1]
    · simp [h1, h2]

/-- Changes of texts, counts and results only. -/
def Mild (s s' : St χ) : Prop := ∃ e o c, s' = { s with errs := e, out := o, errorCount := c }

theorem Mild.refl (s : St χ) : Mild s s := ⟨_, _, _, rfl⟩

theorem Mild.trans {s s1 s2 : St χ} (h : Mild s s1) (h' : Mild s1 s2) : Mild s s2 := by
  obtain ⟨e, o, c, rfl⟩ := h
  obtain ⟨e', o', c', rfl⟩ := h'
  exact ⟨e', o', c', rfl⟩

theorem Mild.kin {s s' : St χ} (h : Mild s s') : Kin s.sh.set s.sh.check s s' := by
  obtain ⟨e, o, c, rfl⟩ := h
  exact ⟨rfl, fun _ _ => rfl, fun _ _ => rfl, rfl, rfl, rfl⟩

/-- `HandleErrorsInternal`, one round of the loop over the processes. -/
theorem fin_errRound (hn : 0 < n) (r : Nat → Int) (s : Nat → St χ) {T : (Nat → St χ) → Prop}
    (I : (Nat → St χ) → Prop) (hI : ∀ s1 s2, I s1 → (∀ p, Mild (s1 p) (s2 p)) → I s2) (hs : I s)
    {i : Nat} (hi : i < n) (recv : Nat → List Int) (hrecv : (recv 0).getD i 0 = r i) :
    Fin' n (fun p => (if p = i then
        if p = 0 then
          if (recv p).getD i 0 ≠ 0 then M.bind M.get (fun s => errorMessage (E.errText s.chem))
          else M.pure ()
        else if r p ≠ 0 then M.bind M.get (fun s =>
          M.bind (M.send 0 (.ints [((E.errText s.chem).length : Int)])) (fun _ =>
          M.send 0 (.chars (E.errText s.chem))))
        else M.pure ()
      else if p = 0 then
        if (recv p).getD i 0 ≠ 0 then
          M.bind (M.recv i .int 1) (fun v =>
          M.bind (M.recv i .chr (match v with | .ints (a :: _) => a | _ => 0 : Int).toNat) (fun t =>
          errorMessage (match t with | .chars t => t | _ => [])))
        else M.pure ()
      else M.pure () : M (St χ) Unit)) s (fun _ => I) T := by
  by_cases h0 : i = 0
  · subst h0
    by_cases hr : r 0 = 0
    · refine .ok (fun _ => ()) s (Tog.loc ?_) hs
      intro p _
      by_cases hp : p = 0
      · subst hp; rw [if_pos rfl, if_pos rfl, hrecv, if_neg (fun h => h hr)]; rfl
      · rw [if_neg hp, if_neg hp]; rfl
    · refine .ok (fun _ => ()) (fun p => if p = 0 then
        { s p with errs := (s p).errs ++ E.errText (s p).chem } else s p) (Tog.loc ?_) (hI s _ hs ?_)
      · intro p _
        by_cases hp : p = 0
        · subst hp; rw [if_pos rfl, if_pos rfl, hrecv, if_pos hr, if_pos rfl]; rfl
        · rw [if_neg hp, if_neg hp, if_neg hp]; rfl
      · intro p
        by_cases hp : p = 0
        · simp only [hp, if_true]; exact ⟨_, _, _, rfl⟩
        · simp only [hp, if_false]; exact Mild.refl _
  · by_cases hr : r i = 0
    · refine .ok (fun _ => ()) s (Tog.loc ?_) hs
      intro p _
      by_cases hpi : p = i
      · subst hpi; rw [if_pos rfl, if_neg h0, if_neg (fun h => h hr)]; rfl
      · by_cases hp : p = 0
        · subst hp; rw [if_neg hpi, if_pos rfl, hrecv, if_neg (fun h => h hr)]; rfl
        · rw [if_neg hpi, if_neg hp]; rfl
    · refine .ok (fun _ => ()) (fun p => if p = 0 then
        { s p with errs := (s p).errs ++ E.errText (s i).chem } else s p) ?_ (hI s _ hs ?_)
      · have h0' : 0 ≠ i := fun h => h0 h.symm
        refine Together.exchange (p := i) (q := 0) (v := .ints [((E.errText (s i).chem).length : Int)])
          (ty := .int) (c := 1) hi hn
          (k := M.send 0 (.chars (E.errText (s i).chem)) (s i))
          (k' := fun v => M.bind (M.recv i .chr (match v with | .ints (a :: _) => a | _ => 0 : Int).toNat)
            (fun t => errorMessage (match t with | .chars t => t | _ => [])) (s 0)) ?_ ?_
          ⟨rfl, by simp [Val.len]⟩ ?_
        · dsimp only
          rw [if_pos rfl, if_neg h0, if_pos hr]; rfl
        · dsimp only
          rw [if_neg h0', if_pos rfl, hrecv, if_pos hr]; rfl
        · refine Together.exchange (p := i) (q := 0) (v := .chars (E.errText (s i).chem))
            (ty := .chr) (c := (E.errText (s i).chem).length) hi hn
            (k := .ret (.ok (), s i))
            (k' := fun t => errorMessage (match t with | .chars t => t | _ => []) (s 0)) ?_ ?_
            ⟨rfl, by simp [Val.len]⟩ (.ret ?_)
          · simp only [if_pos]; rfl
          · simp only [if_neg h0', if_pos]; rfl
          · intro p _
            by_cases hpi : p = i
            · subst hpi; simp only [if_pos, if_neg h0]
            · by_cases hp : p = 0
              · subst hp; simp only [if_neg h0', if_pos]; rfl
              · simp only [if_neg hpi, if_neg hp]; rfl
      · intro p
        by_cases hp : p = 0
        · simp only [hp, if_true]; exact ⟨_, _, _, rfl⟩
        · simp only [hp, if_false]; exact Mild.refl _

/-- `HandleErrorsInternal` returns if no process has an error, and throws in all processes if one
has. -/
theorem fin_handleErrors (hn : 0 < n) (r : Nat → Int) (s : Nat → St χ) :
    Fin' n (fun p => handleErrors E p n (r p)) s
      (fun _ s' => (∀ p < n, r p = 0) ∧ ∀ p, Mild (s p) (s' p))
      (fun s' => (∃ p < n, r p ≠ 0) ∧ ∀ p, Mild (s p) (s' p)) := by
  refine Fin'.bind (Q := fun a s1 => a = (fun p => if p = 0 then (List.range n).map r else []) ∧ s = s1)
    (Fin'.of_tog (Tog.gatherInt r) ⟨rfl, rfl⟩) ?_
  rintro _ _ ⟨rfl, rfl⟩
  refine Fin'.modify_bind (Fin'.get_bind ?_)
  refine Fin'.bind (Q := fun a s1 => a = (fun _ => ((((List.range n).map r).filter (· ≠ 0)).length : Int)) ∧
    ∀ p, Mild (s p) (s1 p)) ?_ ?_
  · refine Fin'.of_tog (Tog.bcastInt _) ⟨?_, fun p => ⟨_, _, _, rfl⟩⟩
    funext p
    simp
  · rintro _ s1 ⟨rfl, hm⟩
    refine Fin'.modify_bind ?_
    have hm' : ∀ p, Mild (s p) ({ s1 p with errorCount :=
        ((((List.range n).map r).filter (· ≠ 0)).length : Int) } : St χ) := fun p =>
      (hm p).trans ⟨_, _, _, rfl⟩
    by_cases hz : (((List.range n).map r).filter (· ≠ 0)).length = 0
    · have hall : ∀ p < n, r p = 0 := by
        intro p hp
        rw [List.length_eq_zero_iff, List.filter_eq_nil_iff] at hz
        have := hz (r p) (List.mem_map.2 ⟨p, List.mem_range.2 hp, rfl⟩)
        simpa using this
      refine Fin'.congr (Fin'.pure (a := fun _ => ()) ⟨hall, hm'⟩) ?_
      intro p hp
      dsimp only
      rw [if_pos (by exact_mod_cast hz)]
      rfl
    · have hex : ∃ p < n, r p ≠ 0 := by
        by_contra hc
        apply hz
        rw [List.length_eq_zero_iff, List.filter_eq_nil_iff]
        intro x hx
        obtain ⟨p, hp, rfl⟩ := List.mem_map.1 hx
        simp only [ne_eq, decide_not, Bool.not_eq_eq_eq_not, Bool.not_true, decide_eq_false_iff_not,
          not_not]
        by_contra hr
        exact hc ⟨p, List.mem_range.1 hp, hr⟩
      refine Fin'.congr (m := fun p => M.bind (M.loop (List.range n) (fun i =>
          if p = i then
            if p = 0 then
              if (if p = 0 then (List.range n).map r else []).getD i 0 ≠ 0 then
                M.bind M.get (fun s => errorMessage (E.errText s.chem))
              else M.pure ()
            else if r p ≠ 0 then M.bind M.get (fun s =>
              M.bind (M.send 0 (.ints [((E.errText s.chem).length : Int)])) (fun _ =>
              M.send 0 (.chars (E.errText s.chem))))
            else M.pure ()
          else if p = 0 then
            if (if p = 0 then (List.range n).map r else []).getD i 0 ≠ 0 then
              M.bind (M.recv i .int 1) (fun v =>
              M.bind (M.recv i .chr (match v with | .ints (a :: _) => a | _ => 0 : Int).toNat) (fun t =>
              errorMessage (match t with | .chars t => t | _ => [])))
            else M.pure ()
          else M.pure ())) (fun _ => M.bind M.barrier (fun _ => M.throw))) (s := fun p =>
          { s1 p with errorCount := ((((List.range n).map r).filter (· ≠ 0)).length : Int) }) ?_ ?_
      · refine Fin'.bind (Q := fun _ s' => ∀ p, Mild (s p) (s' p)) ?_ ?_
        · refine Fin'.loop (I := fun s' => ∀ p, Mild (s p) (s' p)) _ ?_ _ hm'
          intro i hi s2 h2
          exact fin_errRound hn r s2 _ (fun a b ha hb p => (ha p).trans (hb p)) h2
            (List.mem_range.1 hi) (fun p => if p = 0 then (List.range n).map r else []) (by
              have := List.mem_range.1 hi
              simp [List.getD_eq_getElem?_getD, this])
        · intro _ s2 h2
          refine Fin'.bind (Q := fun _ s' => s' = s2) (Fin'.of_tog (a := fun _ => ()) Tog.barrier rfl) ?_
          rintro _ _ rfl
          exact Fin'.throw ⟨hex, h2⟩
      · intro p hp
        dsimp only
        rw [if_neg (by exact_mod_cast hz)]
        rfl

end Verif.Lockstep
