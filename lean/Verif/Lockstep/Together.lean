import Verif.Lockstep.CommLemmas
import Verif.Lockstep.Model

/-!
# Programs that finish together
-/

namespace Verif.Lockstep

variable {n : Nat} {α β γ χ : Type}

/-- The programs of processes `0, …, n - 1` finish with the results, without any buffering. -/
inductive Together (n : Nat) {β : Type} : (Nat → Prog β) → (Nat → β) → Prop
  | ret {P : Nat → Prog β} {R : Nat → β} (h : ∀ p < n, P p = .ret (R p)) : Together n P R
  | coll {P : Nat → Prog β} {R : Nat → β} (cs : Nat → Coll) (ks : Nat → Reply → Prog β)
      (rs : Nat → Reply) (h : ∀ p < n, P p = .coll (cs p) (ks p)) (hm : meet n cs = some rs)
      (t : Together n (fun p => ks p (rs p)) R) : Together n P R
  | rdv {P : Nat → Prog β} {R : Nat → β} {p q : Nat} {v : Val} {ty : Ty} {c : Nat} {k : Prog β}
      {k' : Val → Prog β} (hp : p < n) (hq : q < n) (hs : P p = .send q v k)
      (hr : P q = .recv p ty c k') (hf : v.Fits ty c)
      (t : Together n (Function.update (Function.update P p k) q (k' v)) R) : Together n P R

theorem Together.congr {P P' : Nat → Prog β} {R : Nat → β} (h : Together n P R)
    (he : ∀ p < n, P' p = P p) : Together n P' R := by
  induction h generalizing P' with
  | ret h => exact .ret (fun p hp => (he p hp).trans (h p hp))
  | coll cs ks rs h hm t _ => exact .coll cs ks rs (fun p hp => (he p hp).trans (h p hp)) hm t
  | @rdv P R p q v ty c k k' hp hq hs hr hf t ih =>
    refine .rdv hp hq ((he p hp).trans hs) ((he q hq).trans hr) hf (ih ?_)
    intro j hj
    by_cases h1 : j = q
    · subst h1; simp
    · by_cases h2 : j = p
      · subst h2; simp [Function.update_of_ne h1]
      · simp [Function.update_of_ne h1, Function.update_of_ne h2, he j hj]

theorem Together.congr_res {P : Nat → Prog β} {R R' : Nat → β} (h : Together n P R)
    (he : ∀ p < n, R p = R' p) : Together n P R' := by
  induction h with
  | ret h => exact .ret (fun p hp => by rw [h p hp, he p hp])
  | coll cs ks rs h hm t ih => exact .coll cs ks rs h hm (ih he)
  | rdv hp hq hs hr hf t ih => exact .rdv hp hq hs hr hf (ih he)

theorem Together.bind {P : Nat → Prog α} {A : Nat → α} {K : Nat → α → Prog β} {R : Nat → β}
    (h : Together n P A) (h' : Together n (fun p => K p (A p)) R) :
    Together n (fun p => (P p).bind (K p)) R := by
  induction h with
  | ret h => exact h'.congr (fun p hp => by rw [h p hp]; rfl)
  | coll cs ks rs h hm t ih =>
    exact .coll cs (fun p r => (ks p r).bind (K p)) rs (fun p hp => by rw [h p hp]; rfl) hm (ih h')
  | @rdv P R p q v ty c k k' hp hq hs hr hf t ih =>
    refine .rdv hp hq (by rw [hs]; rfl) (by rw [hr]; rfl) hf ((ih h').congr ?_)
    intro j hj
    by_cases h1 : j = q
    · subst h1; simp
    · by_cases h2 : j = p
      · subst h2; simp [Function.update_of_ne h1]
      · simp [Function.update_of_ne h1, Function.update_of_ne h2]

theorem Prog.bind_assoc (P : Prog α) (f : α → Prog β) (g : β → Prog γ) :
    (P.bind f).bind g = P.bind (fun a => (f a).bind g) := by
  induction P with
  | ret a => rfl
  | coll c k ih => simp only [Prog.bind]; congr 1; funext r; exact ih r
  | send q v k ih => simp only [Prog.bind]; congr 1
  | recv q t c k ih => simp only [Prog.bind]; congr 1; funext v; exact ih v

theorem Prog.bind_ret (P : Prog α) : P.bind .ret = P := by
  induction P with
  | ret a => rfl
  | coll c k ih => simp only [Prog.bind]; congr 1; funext r; exact ih r
  | send q v k ih => simp only [Prog.bind]; congr 1
  | recv q t c k ih => simp only [Prog.bind]; congr 1; funext v; exact ih v

theorem flatMap_single (l : List α) (f : α → β) : l.flatMap (fun a => [f a]) = l.map f := by
  induction l with
  | nil => rfl
  | cons a l ih => simp [List.flatMap_cons, ih]

/-- The functions of the processes, started with the data `s`, finish with results `r` and data
`s'`. -/
def Tog {σ : Type} (n : Nat) (m : Nat → M σ α) (s : Nat → σ) (r : Nat → Res α) (s' : Nat → σ) : Prop :=
  Together n (fun p => m p (s p)) (fun p => (r p, s' p))

namespace Tog

variable {σ : Type} {m m' : Nat → M σ α} {f : Nat → α → M σ β} {s s' s1 s2 : Nat → σ}

theorem loc {r : Nat → Res α} (h : ∀ p < n, m p (s p) = .ret (r p, s' p)) : Tog n m s r s' := .ret h

theorem congr {r : Nat → Res α} (h : Tog n m s r s') (he : ∀ p < n, m' p (s1 p) = m p (s p)) :
    Tog n m' s1 r s' := Together.congr h he

theorem congr_res {r r' : Nat → Res α} (h : Tog n m s r s') (hr : ∀ p < n, r p = r' p)
    (hs : ∀ p < n, s' p = s2 p) : Tog n m s r' s2 :=
  Together.congr_res h (fun p hp => by rw [hr p hp, hs p hp])

theorem bind {a : Nat → α} {r : Nat → Res β} (h : Tog n m s (fun p => .ok (a p)) s1)
    (h' : Tog n (fun p => f p (a p)) s1 r s2) : Tog n (fun p => M.bind (m p) (f p)) s r s2 :=
  Together.bind (A := fun p => (Res.ok (a p), s1 p)) h h'

theorem bind_threw (h : Tog n m s (fun _ => .threw) s1) :
    Tog n (fun p => M.bind (m p) (f p)) s (fun _ => .threw) s1 :=
  Together.bind (A := fun p => (Res.threw, s1 p)) h (.ret (fun _ _ => rfl))

theorem catch_ok {a : Nat → α} (h : Tog n m s (fun p => .ok (a p)) s1) :
    Tog n (fun p => M.tryCatch (m p) (m' p)) s (fun p => .ok (a p)) s1 :=
  Together.bind (A := fun p => (Res.ok (a p), s1 p)) h (.ret (fun _ _ => rfl))

theorem catch_threw {r : Nat → Res α} (h : Tog n m s (fun _ => .threw) s1)
    (h' : Tog n m' s1 r s2) : Tog n (fun p => M.tryCatch (m p) (m' p)) s r s2 :=
  Together.bind (A := fun p => (Res.threw, s1 p)) h h'

theorem get_bind {f : Nat → σ → M σ β} {r : Nat → Res β} (h : Tog n (fun p => f p (s p)) s r s2) :
    Tog n (fun p => M.bind M.get (f p)) s r s2 := h

theorem modify_bind {g : Nat → σ → σ} {f : Nat → Unit → M σ β} {r : Nat → Res β}
    (h : Tog n (fun p => f p ()) (fun p => g p (s p)) r s2) :
    Tog n (fun p => M.bind (M.modify (g p)) (f p)) s r s2 := h

theorem pure_bind {a : Nat → α} {r : Nat → Res β}
    (h : Tog n (fun p => f p (a p)) s r s2) :
    Tog n (fun p => M.bind (M.pure (a p)) (f p)) s r s2 := h

theorem bcastInt (x : Nat → Int) : Tog n (fun p => M.bcastInt (x p)) s (fun _ => .ok (x 0)) s :=
  .coll (fun p => .bcast .int 1 (.ints [x p])) _ (fun _ => .one (.ints [x 0]))
    (fun _ _ => rfl) (by simp [meet, Val.ty, Val.len, Coll.InBcast]) (.ret (fun _ _ => rfl))

theorem bcastDbl (x : Nat → ℚ) : Tog n (fun p => M.bcastDbl (x p)) s (fun _ => .ok (x 0)) s :=
  .coll (fun p => .bcast .dbl 1 (.dbls [x p])) _ (fun _ => .one (.dbls [x 0]))
    (fun _ _ => rfl) (by simp [meet, Val.ty, Val.len, Coll.InBcast]) (.ret (fun _ _ => rfl))

theorem bcastInts {c : Nat} (x : Nat → List Int) (h : (x 0).length = c) :
    Tog n (fun p => M.bcastInts c (x p)) s (fun _ => .ok (x 0)) s :=
  .coll (fun p => .bcast .int c (.ints (x p))) _ (fun _ => .one (.ints (x 0)))
    (fun _ _ => rfl) (by simp [meet, Val.ty, Val.len, Coll.InBcast, h]) (.ret (fun _ _ => rfl))

theorem bcastChars {c : Nat} (x : Nat → List Char) (h : (x 0).length = c) :
    Tog n (fun p => M.bcastChars c (x p)) s (fun _ => .ok (x 0)) s :=
  .coll (fun p => .bcast .chr c (.chars (x p))) _ (fun _ => .one (.chars (x 0)))
    (fun _ _ => rfl) (by simp [meet, Val.ty, Val.len, Coll.InBcast, h]) (.ret (fun _ _ => rfl))

theorem gatherInt (x : Nat → Int) : Tog n (fun p => M.gatherInt (x p)) s
    (fun p => .ok (if p = 0 then (List.range n).map x else [])) s := by
  refine .coll (fun p => .gather .int 1 (.ints [x p])) _
    (fun p => if p = 0 then .all ((List.range n).map (fun q => .ints [x q])) else .nothing)
    (fun _ _ => rfl) (by simp [meet, Val.ty, Val.len, Coll.InGather, Coll.data]) (.ret ?_)
  intro p _
  by_cases hp : p = 0
  · simp [hp, List.flatMap_map, flatMap_single]
  · simp [hp]

theorem gatherDbl (x : Nat → ℚ) : Tog n (fun p => M.gatherDbl (x p)) s
    (fun p => .ok (if p = 0 then (List.range n).map x else [])) s := by
  refine .coll (fun p => .gather .dbl 1 (.dbls [x p])) _
    (fun p => if p = 0 then .all ((List.range n).map (fun q => .dbls [x q])) else .nothing)
    (fun _ _ => rfl) (by simp [meet, Val.ty, Val.len, Coll.InGather, Coll.data]) (.ret ?_)
  intro p _
  by_cases hp : p = 0
  · simp [hp, List.flatMap_map, flatMap_single]
  · simp [hp]

theorem gathervDbls (cs : Nat → List Nat) (x : Nat → List ℚ)
    (h : ∀ p < n, (cs 0)[p]? = some (x p).length) : Tog n (fun p => M.gathervDbls (cs p) (x p)) s
    (fun p => .ok (if p = 0 then ((List.range n).map x).flatten else [])) s := by
  refine .coll (fun p => .gatherv .dbl (cs p) (.dbls (x p))) _
    (fun p => if p = 0 then .all ((List.range n).map (fun q => .dbls (x q))) else .nothing)
    (fun _ _ => rfl) ?_ (.ret ?_)
  · simp only [meet]
    rw [if_pos]
    · rfl
    · intro p hp
      simp [Coll.InGatherv, Val.ty, Val.len, h p hp]
  · intro p _
    by_cases hp : p = 0
    · simp [hp, List.flatMap_def]
      rfl
    · simp [hp]

theorem scattervDbls (ps : Nat → List (List ℚ)) (want : Nat → Nat) (x : Nat → List ℚ)
    (h : ∀ p < n, (ps 0)[p]? = some (x p) ∧ (x p).length = want p) :
    Tog n (fun p => M.scattervDbls (ps p) (want p)) s (fun p => .ok (x p)) s := by
  refine .coll (fun p => .scatterv .dbl ((ps p).map .dbls) (want p)) _
    (fun p => match ((ps 0).map Val.dbls)[p]? with | some v => .one v | none => .nothing)
    (fun _ _ => rfl) ?_ (.ret ?_)
  · simp only [meet]
    rw [if_pos]
    · rfl
    intro p hp
    simp [Coll.InScatterv, Val.ty, Val.len, (h p hp).1, (h p hp).2]
  · intro p hp
    simp [(h p hp).1]

theorem scattervInts (ps : Nat → List (List Int)) (want : Nat → Nat) (x : Nat → List Int)
    (h : ∀ p < n, (ps 0)[p]? = some (x p) ∧ (x p).length = want p) :
    Tog n (fun p => M.scattervInts (ps p) (want p)) s (fun p => .ok (x p)) s := by
  refine .coll (fun p => .scatterv .int ((ps p).map .ints) (want p)) _
    (fun p => match ((ps 0).map Val.ints)[p]? with | some v => .one v | none => .nothing)
    (fun _ _ => rfl) ?_ (.ret ?_)
  · simp only [meet]
    rw [if_pos]
    · rfl
    intro p hp
    simp [Coll.InScatterv, Val.ty, Val.len, (h p hp).1, (h p hp).2]
  · intro p hp
    simp [(h p hp).1]

theorem allmin (x : Nat → Int) : Tog n (fun p => M.allmin (x p)) s
    (fun _ => .ok (least (x 0) ((List.range n).map x))) s :=
  .coll (fun p => .allmin (x p)) _ (fun _ => .one (.ints [least (x 0) ((List.range n).map x)]))
    (fun _ _ => rfl) (by simp [meet, Coll.InAllmin, Coll.number]) (.ret (fun _ _ => rfl))

theorem barrier : Tog n (fun _ => M.barrier) s (fun _ => .ok ()) s :=
  .coll (fun _ => .barrier) _ (fun _ => .nothing) (fun _ _ => rfl) (by simp [meet])
    (.ret (fun _ _ => rfl))

end Tog

end Verif.Lockstep
