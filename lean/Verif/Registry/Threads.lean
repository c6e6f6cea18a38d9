import Verif.Registry.Props

/-!
# Threads using the registry (C86)

`Destroy` (`/repo/src/PhreeqcRM.h:174-184`) searches the map without taking `_InstancesLock`, while
the constructor, `GetInstance` and the destructor take it. Here each thread runs its own list of
calls and a schedule picks the thread that moves. Calls under the lock are one move; `Destroy` is
three: the search begins, the search ends, the object is deleted (its destructor erases the entry
under the lock). A write to the map while another thread's unlocked search is going on is a data
race, and deleting an object already deleted is undefined: both are `ub`. Simplification: the
deletion itself is one move.
-/

namespace Verif.Registry

open Verif.OMap

/-- Calls a thread makes. -/
inductive Call
  | create (o : Obj)
  | get (id : Int)
  | destroy (id : Int)
  deriving DecidableEq

/-- Where a thread is. -/
inductive PC
  | idle
  | searching (id : Int)
  | found (i : Nat) (o : Obj)
  deriving DecidableEq

/-- A thread: position, calls still to make, replies, latest first. -/
structure Thread where
  pc      : PC
  todo    : List Call
  replies : List Reply

/-- Registry and threads. -/
structure Sys where
  reg : Reg
  thr : List Thread

/-- Some thread is searching without the lock. -/
def Sys.searching (s : Sys) : Bool :=
  s.thr.any (fun t => match t.pc with | .searching _ => true | _ => false)

/-- One move of a thread that is at `pc`. `busy`: another thread searches without the lock. -/
def move (r : Reg) (busy : Bool) (t : Thread) : Res (Reg × Thread) :=
  match t.pc, t.todo with
  | .idle, [] => .ok (r, t)
  | .idle, .create o :: rest =>
    if busy then .ub
    else do
      let p ← create r o true
      .ok (p.1, ⟨.idle, rest, .made p.2 :: t.replies⟩)
  | .idle, .get id :: rest => do
    let p ← getInstance r id
    .ok (p.1, ⟨.idle, rest, .found p.2 :: t.replies⟩)
  | .idle, .destroy id :: rest => .ok (r, ⟨.searching id, rest, t.replies⟩)
  | .searching id, rest =>
    match find r.inst (sizeT id) with
    | some o => .ok (r, ⟨.found (sizeT id) o, rest, t.replies⟩)
    | none => .ok (r, ⟨.idle, rest, .code .badInstance :: t.replies⟩)
  | .found i o, rest =>
    if busy ∨ find r.inst i = none then .ub
    else do
      let p ← delete r (i, o)
      .ok (p.1, ⟨.idle, rest, .code .ok :: t.replies⟩)

/-- Thread `n` moves. -/
def tick (s : Sys) (n : Nat) : Res Sys :=
  match s.thr[n]? with
  | none => .ok s
  | some t => do
    let p ← move s.reg (Sys.searching ⟨s.reg, s.thr.eraseIdx n⟩) t
    .ok ⟨p.1, s.thr.set n p.2⟩

/-- A schedule. -/
def play (s : Sys) (sched : List Nat) : Res Sys := sched.foldlM tick s

/-- Threads that have not begun. -/
def fresh (calls : List (List Call)) : List Thread := calls.map (fun c => ⟨.idle, c, []⟩)

/-- Modules a thread is given to destroy. -/
def destroys : List Call → List Int
  | [] => []
  | .destroy id :: c => id :: destroys c
  | _ :: c => destroys c

/-- C86 as stated: threads that destroy only modules of their own (all living, made with `new`, no
module destroyed twice) never run into undefined behaviour, whatever they create or look up. -/
def ThreadSafe : Prop :=
  ∀ (r : Reg) (calls : List (List Call)) (sched : List Nat),
    (calls.map destroys).flatten.Nodup →
    (∀ id ∈ (calls.map destroys).flatten, ∃ o, find r.inst (sizeT id) = some o ∧ o.heap = true) →
    r.locked = false → play ⟨r, fresh calls⟩ sched ≠ .ub

/-- C86 is violated: one thread destroys its module while another creates one. -/
theorem thread_safe_violated : ¬ ThreadSafe := by
  intro h
  refine h ⟨1, [(0, ⟨false, true⟩)], false⟩ [[.destroy 0], [.create ⟨false, true⟩]] [0, 1]
    (by decide) ?_ rfl ?_
  · intro id hid
    simp [destroys] at hid
    subst hid
    exact ⟨⟨false, true⟩, by decide +kernel, rfl⟩
  · rfl

/-- Also with two threads that destroy one module each. -/
theorem two_destroys_race :
    ∃ sched, play ⟨⟨2, [(0, ⟨false, true⟩), (1, ⟨false, true⟩)], false⟩,
      fresh [[.destroy 0], [.destroy 1]]⟩ sched = .ub := ⟨[0, 0, 1, 0], rfl⟩

/-- And two threads that destroy the same module may both delete it. -/
theorem double_delete :
    ∃ sched, play ⟨⟨1, [(0, ⟨false, true⟩)], false⟩,
      fresh [[.destroy 0], [.destroy 0]]⟩ sched = .ub := ⟨[0, 1, 0, 1, 0, 1], rfl⟩

/-- Only lookups. -/
def OnlyGets (c : List Call) : Prop := ∀ x ∈ c, ∃ id, x = .get id

/-- No `Destroy`. -/
def NoDestroys (c : List Call) : Prop := destroys c = []

/-- Outcomes that are neither undefined nor blocked. -/
def Returns {α : Type} (r : Res α) : Prop := ∃ a, r = .ok a

theorem searching_false {ts : List Thread} (r : Reg) (h : ∀ t ∈ ts, t.pc = .idle) :
    Sys.searching ⟨r, ts⟩ = false := by
  simp only [Sys.searching, List.any_eq_false]
  intro t ht
  rw [h t ht]
  simp

/-- C86, first part that holds: threads that only create and look up never fail, and every thread
that looks up an identifier it was given finds a module as long as nobody destroys. Missing:
schedules with `Destroy`, see `one_destroyer_partial`. -/
theorem creators_partial (calls : List (List Call)) (hno : ∀ c ∈ calls, NoDestroys c)
    (r : Reg) (hr : r.locked = false) (sched : List Nat) :
    ∃ s, play ⟨r, fresh calls⟩ sched = .ok s ∧ s.reg.locked = false ∧
      ∀ t ∈ s.thr, t.pc = .idle ∧ NoDestroys t.todo := by
  have gen : ∀ (sched : List Nat) (s : Sys), s.reg.locked = false →
      (∀ t ∈ s.thr, t.pc = .idle ∧ NoDestroys t.todo) →
      ∃ s', play s sched = .ok s' ∧ s'.reg.locked = false ∧
        ∀ t ∈ s'.thr, t.pc = .idle ∧ NoDestroys t.todo := by
    intro sched
    induction sched with
    | nil => intro s hl ht; exact ⟨s, rfl, hl, ht⟩
    | cons n sched ih =>
      intro s hl ht
      have hstep : ∃ s', tick s n = .ok s' ∧ s'.reg.locked = false ∧
          ∀ t ∈ s'.thr, t.pc = .idle ∧ NoDestroys t.todo := by
        unfold tick
        cases hg : s.thr[n]? with
        | none => exact ⟨s, rfl, hl, ht⟩
        | some t =>
          have htm := List.mem_of_getElem? hg
          obtain ⟨hpc, hnd⟩ := ht t htm
          rw [searching_false s.reg (fun t' h' => (ht t' (List.mem_of_mem_eraseIdx h')).1)]
          have hset : ∀ t', (t'.pc = .idle ∧ NoDestroys t'.todo) →
              ∀ u ∈ s.thr.set n t', u.pc = .idle ∧ NoDestroys u.todo := by
            intro t' h' u hu
            rcases List.mem_or_eq_of_mem_set hu with hu | rfl
            · exact ht u hu
            · exact h'
          obtain ⟨pc, todo, rep⟩ := t
          simp only at hpc hnd
          subst hpc
          cases todo with
          | nil => exact ⟨_, rfl, hl, hset _ ⟨rfl, rfl⟩⟩
          | cons c rest =>
            cases c with
            | create o =>
              refine ⟨⟨{ s.reg with next := (s.reg.next + 1) % 2 ^ 64,
                                     inst := OMap.insert s.reg.inst s.reg.next o },
                s.thr.set n ⟨.idle, rest, .made (toInt s.reg.next) :: rep⟩⟩, ?_, hl,
                hset _ ⟨rfl, hnd⟩⟩
              simp only [move, create, ctor_eq hl, Res.ok_bind, if_true, Bool.false_eq_true,
                if_false]
            | get id =>
              refine ⟨⟨s.reg, s.thr.set n ⟨.idle, rest,
                .found (find s.reg.inst (sizeT id)) :: rep⟩⟩, ?_, hl, hset _ ⟨rfl, hnd⟩⟩
              simp only [move, getInstance_eq hl, Res.ok_bind]
            | destroy id => simp [NoDestroys, destroys] at hnd
      obtain ⟨s', h1, h2, h3⟩ := hstep
      obtain ⟨s'', h4, h5⟩ := ih s' h2 h3
      refine ⟨s'', ?_, h5⟩
      unfold play at h4 ⊢
      rw [List.foldlM_cons, h1, Res.ok_bind, h4]
  refine gen sched _ hr (fun t ht => ?_)
  simp only [fresh, List.mem_map] at ht
  obtain ⟨c, hc, rfl⟩ := ht
  exact ⟨rfl, hno c hc⟩

/-- C86, second part that holds: one thread (number `d`) makes any calls, the others only look
modules up, and all modules are made with `new`: nothing undefined happens, under any schedule.
Missing: two or more threads that create or destroy while one of them destroys. -/
theorem one_destroyer_partial (calls : List (List Call)) (d : Nat)
    (hothers : ∀ n c, calls[n]? = some c → n ≠ d → OnlyGets c)
    (hheap : ∀ c ∈ calls, ∀ o, Call.create o ∈ c → o.heap = true)
    (r : Reg) (hr : r.locked = false) (hrh : ∀ k o, find r.inst k = some o → o.heap = true)
    (sched : List Nat) : Returns (play ⟨r, fresh calls⟩ sched) := by
  have gen : ∀ (sched : List Nat) (s : Sys), s.reg.locked = false →
      (∀ k o, find s.reg.inst k = some o → o.heap = true) →
      (∀ t ∈ s.thr, ∀ o, Call.create o ∈ t.todo → o.heap = true) →
      (∀ n t, s.thr[n]? = some t → n ≠ d → t.pc = .idle ∧ OnlyGets t.todo) →
      (∀ t i o, s.thr[d]? = some t → t.pc = .found i o → find s.reg.inst i = some o) →
      Returns (play s sched) := by
    intro sched
    induction sched with
    | nil => intro s _ _ _ _ _; exact ⟨s, rfl⟩
    | cons n sched ih =>
      intro s hl hh hc ho hd
      have hstep : ∃ s', tick s n = .ok s' ∧ s'.reg.locked = false ∧
          (∀ k o, find s'.reg.inst k = some o → o.heap = true) ∧
          (∀ t ∈ s'.thr, ∀ o, Call.create o ∈ t.todo → o.heap = true) ∧
          (∀ n t, s'.thr[n]? = some t → n ≠ d → t.pc = .idle ∧ OnlyGets t.todo) ∧
          (∀ t i o, s'.thr[d]? = some t → t.pc = .found i o → find s'.reg.inst i = some o) := by
        unfold tick
        cases hg : s.thr[n]? with
        | none => exact ⟨s, rfl, hl, hh, hc, ho, hd⟩
        | some t =>
          have htm := List.mem_of_getElem? hg
          have hnl : n < s.thr.length := (List.getElem?_eq_some_iff.mp hg).1
          -- what has to be checked of the new thread
          have fin : ∀ (r' : Reg) (t' : Thread), r'.locked = false →
              (∀ k o, find r'.inst k = some o → o.heap = true) →
              (∀ x ∈ t'.todo, x ∈ t.todo) →
              (n ≠ d → t'.pc = .idle) →
              (n ≠ d → r' = s.reg) →
              (n = d → ∀ i o, t'.pc = .found i o → find r'.inst i = some o) →
              (Res.ok (Sys.mk r' (s.thr.set n t')) : Res Sys) =
                  .ok ⟨r', s.thr.set n t'⟩ ∧ r'.locked = false ∧
                (∀ k o, find r'.inst k = some o → o.heap = true) ∧
                (∀ u ∈ s.thr.set n t', ∀ o, Call.create o ∈ u.todo → o.heap = true) ∧
                (∀ m u, (s.thr.set n t')[m]? = some u → m ≠ d → u.pc = .idle ∧ OnlyGets u.todo) ∧
                (∀ u i o, (s.thr.set n t')[d]? = some u → u.pc = .found i o →
                  find r'.inst i = some o) := by
            intro r' t' h1 h2 h3 h4 h5 h6
            refine ⟨rfl, h1, h2, ?_, ?_, ?_⟩
            · intro u hu o ho'
              rcases List.mem_or_eq_of_mem_set hu with hu | rfl
              · exact hc u hu o ho'
              · exact hc t htm o (h3 _ ho')
            · intro m u hm hmd
              rw [List.getElem?_set] at hm
              by_cases e : n = m
              · subst e
                rw [if_pos rfl, if_pos hnl] at hm
                simp only [Option.some.injEq] at hm
                subst hm
                exact ⟨h4 hmd, fun x hx => (ho n t hg hmd).2 x (h3 x hx)⟩
              · rw [if_neg e] at hm
                exact ho m u hm hmd
            · intro u i o hu hpc
              rw [List.getElem?_set] at hu
              by_cases e : n = d
              · rw [if_pos e, if_pos hnl] at hu
                simp only [Option.some.injEq] at hu
                subst hu
                exact h6 e i o hpc
              · rw [if_neg e] at hu
                rw [h5 e]
                exact hd u i o hu hpc
          by_cases hnd : n = d
          · -- the thread that may do anything: all others are idle
            have hidle : Sys.searching ⟨s.reg, s.thr.eraseIdx n⟩ = false := by
              apply searching_false
              intro u hu
              obtain ⟨m, hm⟩ := List.mem_iff_getElem?.mp hu
              rw [List.getElem?_eraseIdx] at hm
              split at hm
              · exact (ho m u hm (by omega)).1
              · exact (ho (m + 1) u hm (by omega)).1
            rw [hidle]
            obtain ⟨pc, todo, rep⟩ := t
            cases pc with
            | idle =>
              cases todo with
              | nil =>
                exact ⟨_, fin s.reg ⟨.idle, [], rep⟩ hl hh (fun _ h => h) (fun _ => rfl)
                  (fun _ => rfl) (fun _ i o h => by cases h)⟩
              | cons c rest =>
                cases c with
                | create o =>
                  have ho' : o.heap = true := hc _ htm o (by simp)
                  simp only [move, create, ctor_eq hl, Res.ok_bind, if_true, Bool.false_eq_true,
                    if_false]
                  refine ⟨_, fin _ _ hl (fun k o2 hk => ?_) (fun x hx => by simp [hx])
                    (fun _ => rfl) (fun h => absurd hnd h) (fun _ i o h => by cases h)⟩
                  simp only [find_insert] at hk
                  split at hk
                  · simp only [Option.some.injEq] at hk
                    rw [← hk]; exact ho'
                  · exact hh k o2 hk
                | get id =>
                  simp only [move, getInstance_eq hl, Res.ok_bind]
                  exact ⟨_, fin _ _ hl hh (fun x hx => by simp [hx]) (fun _ => rfl)
                    (fun _ => rfl) (fun _ i o h => by cases h)⟩
                | destroy id =>
                  simp only [move, Res.ok_bind]
                  exact ⟨_, fin _ _ hl hh (fun x hx => by simp [hx])
                    (fun h => absurd hnd h) (fun _ => rfl) (fun _ i o h => by cases h)⟩
            | searching id =>
              simp only [move]
              cases hf : find s.reg.inst (sizeT id) with
              | none =>
                simp only [Res.ok_bind]
                exact ⟨_, fin _ _ hl hh (fun _ h => h) (fun _ => rfl) (fun _ => rfl)
                  (fun _ i o h => by cases h)⟩
              | some o =>
                simp only [Res.ok_bind]
                refine ⟨_, fin _ _ hl hh (fun _ h => h) (fun h => absurd hnd h) (fun _ => rfl)
                  (fun _ i o2 h => ?_)⟩
                simp only [PC.found.injEq] at h
                rw [← h.1, ← h.2]; exact hf
            | found i o =>
              have hf := hd _ i o (hnd ▸ hg) rfl
              simp only [move, hf, Bool.false_eq_true, reduceCtorEq, or_self, if_false, delete,
                hh i o hf, if_true, dtor_eq hl, Res.ok_bind]
              refine ⟨_, fin _ _ hl (fun k o2 hk => ?_) (fun _ h => h) (fun _ => rfl)
                (fun h => absurd hnd h) (fun _ i o h => by cases h)⟩
              simp only [find_erase] at hk
              split at hk
              · cases hk
              · exact hh k o2 hk
          · -- a thread that only looks up
            obtain ⟨hpc, hog⟩ := ho n t hg hnd
            obtain ⟨pc, todo, rep⟩ := t
            simp only at hpc hog
            subst hpc
            cases todo with
            | nil =>
              simp only [move, Res.ok_bind]
              exact ⟨_, fin _ _ hl hh (fun _ h => h) (fun _ => rfl)
                (fun _ => rfl) (fun e => absurd e hnd)⟩
            | cons c rest =>
              obtain ⟨id, rfl⟩ := hog c (by simp)
              simp only [move, getInstance_eq hl, Res.ok_bind]
              exact ⟨_, fin _ _ hl hh (fun x hx => by simp [hx]) (fun _ => rfl)
                (fun _ => rfl) (fun e => absurd e hnd)⟩
      obtain ⟨s', h1, h2, h3, h4, h5, h6⟩ := hstep
      obtain ⟨s'', h7⟩ := ih s' h2 h3 h4 h5 h6
      refine ⟨s'', ?_⟩
      unfold play at h7 ⊢
      rw [List.foldlM_cons, h1, Res.ok_bind, h7]
  refine gen sched _ hr hrh ?_ ?_ ?_
  · intro t ht o ho
    simp only [fresh, List.mem_map] at ht
    obtain ⟨c, hc, rfl⟩ := ht
    exact hheap c hc o ho
  · intro n t ht hn
    simp only [fresh, List.getElem?_map, Option.map_eq_some_iff] at ht
    obtain ⟨c, hc, rfl⟩ := ht
    exact ⟨rfl, hothers n c hc hn⟩
  · intro t i o ht hpc
    simp only [fresh, List.getElem?_map, Option.map_eq_some_iff] at ht
    obtain ⟨c, hc, rfl⟩ := ht
    cases hpc

end Verif.Registry
