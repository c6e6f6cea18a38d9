import Verif.Raw.Spec
import Verif.NameDouble.Lemmas

/-!
# Reader loops: lemmas
-/

namespace Verif.Raw

open Verif.OMap Verif.NameDouble

variable {σ ι α : Type}

/-- The reader consumes all of `ls` and passes from `s` to `s'`. -/
def Goes (step : Line → σ → Res σ) : List Line → σ → σ → Prop
  | [], s, s' => s = s'
  | l :: ls, s, s' => ∃ t, step l s = .go t ∧ Goes step ls t s'

theorem goes_nil (step : Line → σ → Res σ) (s : σ) : Goes step [] s s := rfl

theorem goes_one {step : Line → σ → Res σ} {l : Line} {s s' : σ} (h : step l s = .go s') :
    Goes step [l] s s' := ⟨s', h, rfl⟩

theorem goes_cons {step : Line → σ → Res σ} {l : Line} {b : List Line} {s s' s'' : σ}
    (h : step l s = .go s') (h' : Goes step b s' s'') : Goes step (l :: b) s s'' := ⟨s', h, h'⟩

theorem goes_append {step : Line → σ → Res σ} {a b : List Line} {s s' s'' : σ}
    (h : Goes step a s s') (h' : Goes step b s' s'') : Goes step (a ++ b) s s'' := by
  induction a generalizing s with
  | nil => obtain rfl : s = s' := h; exact h'
  | cons l a ih =>
    obtain ⟨t, h1, h2⟩ := h
    exact ⟨t, h1, ih h2⟩

theorem feed_goes {step : Line → σ → Res σ} {a : List Line} {s s' : σ} (h : Goes step a s s')
    (ms : List Line) : feed step (a ++ ms) s = feed step ms s' := by
  induction a generalizing s with
  | nil => obtain rfl : s = s' := h; rfl
  | cons l a ih =>
    obtain ⟨t, h1, h2⟩ := h
    simp only [List.cons_append, feed, h1]
    exact ih h2

theorem feed_stop {step : Line → σ → Res σ} {l : Line} {ls : List Line} {s s' : σ}
    (h : step l s = .stop s') : feed step (l :: ls) s = (s', l :: ls) := by
  simp only [feed, h]

/-- A run of the nested reader inside the outer one. -/
theorem goes_nest {outer : Line → σ → Res (σ × Option ι)} {inner : Line → ι → Res ι}
    {close : σ → ι → σ} {a : List Line} {i i' : ι} (h : Goes inner a i i') (s : σ) :
    Goes (nestStep outer inner close) a (s, some i) (s, some i') := by
  induction a generalizing i with
  | nil => obtain rfl : i = i' := h; rfl
  | cons l a ih =>
    obtain ⟨t, h1, h2⟩ := h
    exact ⟨(s, some t), by simp only [nestStep, h1], ih h2⟩

theorem isKeyword_dash (w : Name) : isKeyword ('-' :: w) = false := by
  have h : ∀ k ∈ keywords, k.head? ≠ some '-' := by decide +kernel
  cases e : isKeyword ('-' :: w)
  · rfl
  · have := List.contains_iff_mem.mp e
    exact absurd rfl (h _ this)

/-- Outcome of an option line. -/
theorem getOption_opt {opts : List Name} {w : String} {n : Nat} (rest : List Tok)
    (ho : isOption ('-' :: w.toList) = true) (hf : findOption false opts w.toList = some n) :
    getOption opts (optLine w rest) = (.opt n, rest) := by
  unfold getOption optLine
  simp only [isKeyword_dash, Bool.false_eq_true, if_false, ho, if_true, List.tail_cons, hf]

theorem getOption_err {opts : List Name} {w : String} (rest : List Tok)
    (ho : isOption ('-' :: w.toList) = true) (hf : findOption false opts w.toList = none) :
    getOption opts (optLine w rest) = (.err, optLine w rest) := by
  unfold getOption optLine
  simp only [isKeyword_dash, Bool.false_eq_true, if_false, ho, if_true, List.tail_cons, hf]

theorem flat_opt {opts : List Name} {act : Nat → List Tok → RS α → RS α}
    {unknown : RS α → Res (RS α)} {w : String} (n : Nat) (rest : List Tok) (s : RS α)
    (ho : isOption ('-' :: w.toList) = true) (hf : findOption false opts w.toList = some n) :
    flatStep opts act unknown (optLine w rest) s = .go (act n rest s) := by
  unfold flatStep
  rw [getOption_opt rest ho hf]

theorem flat_err {opts : List Name} {act : Nat → List Tok → RS α → RS α}
    {unknown : RS α → Res (RS α)} {w : String} (rest : List Tok) (s : RS α)
    (ho : isOption ('-' :: w.toList) = true) (hf : findOption false opts w.toList = none) :
    flatStep opts act unknown (optLine w rest) s = unknown s := by
  unfold flatStep
  rw [getOption_err rest ho hf]

theorem outer_opt {opts : List Name} {act : Nat → List Tok → RS α → RS α}
    {enter : Nat → List Tok → RS α → Option (RS α × Option ι)}
    {unknown : RS α → Res (RS α × Option ι)} {w : String} (n : Nat) (rest : List Tok) (s : RS α)
    (ho : isOption ('-' :: w.toList) = true) (hf : findOption false opts w.toList = some n)
    (he : enter n rest s = none) :
    outerStep opts act enter unknown (optLine w rest) s = .go (act n rest s, none) := by
  unfold outerStep
  rw [getOption_opt rest ho hf]
  simp only [he]

theorem outer_enter {opts : List Name} {act : Nat → List Tok → RS α → RS α}
    {enter : Nat → List Tok → RS α → Option (RS α × Option ι)}
    {unknown : RS α → Res (RS α × Option ι)} {w : String} (n : Nat) (rest : List Tok) (s : RS α)
    {r : RS α × Option ι}
    (ho : isOption ('-' :: w.toList) = true) (hf : findOption false opts w.toList = some n)
    (he : enter n rest s = some r) :
    outerStep opts act enter unknown (optLine w rest) s = .go r := by
  unfold outerStep
  rw [getOption_opt rest ho hf]
  simp only [he]

theorem findOption_exact_none {opts : List Name} {w : Name} (h : lower w ∉ opts) :
    findOption true opts w = none := by
  unfold findOption
  rw [List.findIdx?_eq_none_iff]
  intro o ho
  simp only [if_true]
  cases e : (o == lower w)
  · rfl
  · exact absurd (eq_of_beq e ▸ ho) h

theorem getOption_plain {opts : List Name} {w : Name} (rest : List Tok) (h : Plain opts w) :
    getOption opts (.word w :: rest) = (.dflt, .word w :: rest) := by
  obtain ⟨h1, h2, h3⟩ := h
  unfold getOption
  simp only [h1, h2, Bool.false_eq_true, if_false, findOption_exact_none h3]

/-- A list of names and numbers, read under `opt_save = n`. -/
theorem goes_pairs {opts : List Name} {act : Nat → List Tok → RS α → RS α}
    {unknown : RS α → Res (RS α)} {n : Nat} {put : Name → ℚ → α → α} (rnd : ℚ → ℚ)
    (hact : ∀ w q (s : RS α), s.save = some n →
      act n [.word w, .num q] s = { s with val := put w q s.val })
    (nd : ND) (hp : ∀ p ∈ nd, Plain opts p.1) (s : RS α) (hs : s.save = some n) :
    Goes (flatStep opts act unknown) (dumpND rnd nd) s
      { s with val := nd.foldl (fun v p => put p.1 (rnd p.2) v) s.val } := by
  induction nd generalizing s with
  | nil => exact goes_nil _ _
  | cons p nd ih =>
    have hstep : flatStep opts act unknown [.word p.1, .num (rnd p.2)] s
        = .go { s with val := put p.1 (rnd p.2) s.val } := by
      unfold flatStep
      rw [getOption_plain _ (hp p (List.mem_cons_self ..))]
      simp only [hs, hact _ _ s hs]
    refine goes_cons hstep ?_
    exact ih (fun q hq => hp q (List.mem_cons_of_mem _ hq))
      { s with val := put p.1 (rnd p.2) s.val } hs

/-- Same for a reader with nested readers, outside of them. -/
theorem goes_pairs_outer {opts : List Name} {act : Nat → List Tok → RS α → RS α}
    {enter : Nat → List Tok → RS α → Option (RS α × Option ι)} {inner : Line → ι → Res ι}
    {close : RS α → ι → RS α}
    {unknown : RS α → Res (RS α × Option ι)} {n : Nat} {put : Name → ℚ → α → α} (rnd : ℚ → ℚ)
    (hact : ∀ w q (s : RS α), s.save = some n →
      act n [.word w, .num q] s = { s with val := put w q s.val })
    (nd : ND) (hp : ∀ p ∈ nd, Plain opts p.1) (s : RS α) (hs : s.save = some n) :
    Goes (nestStep (outerStep opts act enter unknown) inner close) (dumpND rnd nd) (s, none)
      ({ s with val := nd.foldl (fun v p => put p.1 (rnd p.2) v) s.val }, none) := by
  induction nd generalizing s with
  | nil => exact goes_nil _ _
  | cons p nd ih =>
    have hstep : nestStep (outerStep opts act enter unknown) inner close
        [.word p.1, .num (rnd p.2)] (s, none)
        = .go ({ s with val := put p.1 (rnd p.2) s.val }, none) := by
      unfold nestStep outerStep
      rw [getOption_plain _ (hp p (List.mem_cons_self ..))]
      simp only [hs, hact _ _ s hs]
    refine goes_cons hstep ?_
    exact ih (fun q hq => hp q (List.mem_cons_of_mem _ hq))
      { s with val := put p.1 (rnd p.2) s.val } hs

/-- `m[k] = v` with a key beyond all keys appends. -/
theorem insert_last {κ ν : Type} [LinearOrder κ] (m : SMap κ ν) (k : κ) (v : ν)
    (h : ∀ p ∈ m, p.1 < k) : insert m k v = m ++ [(k, v)] := by
  induction m with
  | nil => rfl
  | cons p m ih =>
    have h1 := h p (List.mem_cons_self ..)
    simp only [OMap.insert, List.cons_append]
    rw [if_neg (not_lt.mpr h1.le), if_neg (ne_of_gt h1),
      ih (fun q hq => h q (List.mem_cons_of_mem _ hq))]

theorem foldl_insert_aux {κ ν μ : Type} [LinearOrder κ] (f : ν → μ) (nd : SMap κ ν)
    (m : SMap κ μ) (hs : Sorted nd) (hm : ∀ p ∈ m, ∀ q ∈ nd, p.1 < q.1) :
    nd.foldl (fun m p => insert m p.1 (f p.2)) m = m ++ nd.map (fun p => (p.1, f p.2)) := by
  induction nd generalizing m with
  | nil => simp
  | cons p nd ih =>
    obtain ⟨h1, h2⟩ := List.pairwise_cons.mp hs
    simp only [List.foldl_cons, List.map_cons]
    rw [insert_last m p.1 (f p.2) (fun q hq => hm q hq p (List.mem_cons_self ..)), ih _ h2]
    · simp
    · intro q hq r hr
      rcases List.mem_append.mp hq with hq | hq
      · exact hm q hq r (List.mem_cons_of_mem _ hr)
      · obtain rfl := List.mem_singleton.mp hq
        exact h1 r hr

/-- Storing the entries of a map one by one in an empty map. -/
theorem foldl_insert_sorted {κ ν μ : Type} [LinearOrder κ] (f : ν → μ) (nd : SMap κ ν)
    (hs : Sorted nd) :
    nd.foldl (fun m p => insert m p.1 (f p.2)) [] = nd.map (fun p => (p.1, f p.2)) := by
  rw [foldl_insert_aux f nd [] hs (by simp)]; rfl

/-- A fold that changes one member only. -/
theorem foldl_lens {α β ν : Type} (get : α → β) (set : β → α → α)
    (h1 : ∀ b a, get (set b a) = b) (h2 : ∀ b b' a, set b (set b' a) = set b a)
    (h3 : ∀ a, set (get a) a = a) (f : β → ν → β) (l : List ν) (a : α) :
    l.foldl (fun v p => set (f (get v) p) v) a = set (l.foldl f (get a)) a := by
  induction l generalizing a with
  | nil => exact (h3 a).symm
  | cons p l ih => simp only [List.foldl_cons]; rw [ih, h1, h2]

theorem dumpND_nil (rnd : ℚ → ℚ) : dumpND rnd [] = [] := rfl

/-- Header of a data block. -/
theorem readHead_headLine (kw : String) (h : Head) :
    readHead (headLine kw h) = ⟨h.nUser, h.nUser, h.desc⟩ := by
  unfold readHead headLine
  dsimp only
  split
  · simp
  · simp

theorem goes_eq {step : Line → σ → Res σ} {a : List Line} {s s' s'' : σ} (h : Goes step a s s')
    (e : s' = s'') : Goes step a s s'' := e ▸ h

/-- What ends a data block ends a reader. -/
theorem getOption_key {opts : List Name} {w : Name} (l : Line) (h : isKeyword w = true) :
    getOption opts (.word w :: l) = (.key, .word w :: l) := by
  unfold getOption; dsimp only; rw [if_pos h]

theorem feed_nest_end {opts : List Name} {act : Nat → List Tok → RS α → RS α}
    {enter : Nat → List Tok → RS α → Option (RS α × Option ι)} {inner : Line → ι → Res ι}
    {close : RS α → ι → RS α} {unknown : RS α → Res (RS α × Option ι)} (s : RS α)
    {ls : List Line} (h : BlockEnd ls) :
    feed (nestStep (outerStep opts act enter unknown) inner close) ls (s, none)
      = ((s, none), ls) := by
  rcases h with rfl | ⟨w, l, ms, rfl, hw⟩
  · rfl
  · apply feed_stop
    simp only [nestStep, outerStep, getOption_key l hw]

theorem feed_flat_end {opts : List Name} {act : Nat → List Tok → RS α → RS α}
    {unknown : RS α → Res (RS α)} (s : RS α) {ls : List Line} (h : BlockEnd ls) :
    feed (flatStep opts act unknown) ls s = (s, ls) := by
  rcases h with rfl | ⟨w, l, ms, rfl, hw⟩
  · rfl
  · apply feed_stop
    simp only [flatStep, getOption_key l hw]

/-- The line at which a nested reader ends is treated by the outer one. -/
theorem nest_stop {outer : Line → σ → Res (σ × Option ι)} {inner : Line → ι → Res ι}
    {close : σ → ι → σ} {l : Line} {s : σ} {i i' : ι} {r : Res (σ × Option ι)}
    (h : inner l i = .stop i') (h' : outer l (close s i') = r) :
    nestStep outer inner close l (s, some i) = r := by
  simp only [nestStep, h, h']

/-- Distinct keys stored one by one: a sorted rearrangement. -/
theorem insert_perm {κ ν : Type} [LinearOrder κ] (m : SMap κ ν) (k : κ) (v : ν)
    (h : k ∉ keys m) : (OMap.insert m k v).Perm ((k, v) :: m) := by
  induction m with
  | nil => exact List.Perm.refl _
  | cons p m ih =>
    simp only [keys, List.map_cons, List.mem_cons, not_or] at h
    simp only [OMap.insert]
    split
    · exact List.Perm.refl _
    · rw [if_neg h.1]
      exact ((ih h.2).cons p).trans (List.Perm.swap _ _ _)

theorem foldl_insert_perm {κ ν : Type} [LinearOrder κ] (key : ν → κ) (l : List ν)
    (m : SMap κ ν) (hd : (l.map key).Nodup) (hm : ∀ c ∈ l, key c ∉ keys m) (hs : Sorted m) :
    (l.foldl (fun m c => OMap.insert m (key c) c) m).Perm (m ++ l.map (fun c => (key c, c))) ∧
      Sorted (l.foldl (fun m c => OMap.insert m (key c) c) m) := by
  induction l generalizing m with
  | nil => exact ⟨by simp, hs⟩
  | cons c l ih =>
    simp only [List.map_cons, List.nodup_cons] at hd
    have hc := hm c (List.mem_cons_self ..)
    simp only [List.foldl_cons]
    obtain ⟨h1, h2⟩ := ih (OMap.insert m (key c) c) hd.2 (by
      intro d hd' hmem
      rw [mem_keys_insert] at hmem
      rcases hmem with e | e
      · exact hd.1 (e ▸ List.mem_map_of_mem hd')
      · exact hm d (List.mem_cons_of_mem _ hd') e) (sorted_insert hs _ _)
    refine ⟨h1.trans ?_, h2⟩
    refine ((insert_perm m (key c) c hc).append_right _).trans ?_
    simp only [List.cons_append, List.map_cons]
    exact (List.perm_middle).symm

/-- A member of a structure with its update. -/
structure Lens (α β : Type) where
  get : α → β
  set : β → α → α
  get_set : ∀ b a, get (set b a) = b
  set_set : ∀ b b' a, set b (set b' a) = set b a
  set_get : ∀ a, set (get a) a = a

theorem fold_list (L : Lens α ND) (rnd : ℚ → ℚ) (nd : ND) (hs : Sorted nd) (a : α)
    (h0 : L.get a = []) :
    nd.foldl (fun v p => L.set (OMap.insert (L.get v) p.1 (rnd p.2)) v) a
      = L.set (rounded rnd nd) a := by
  rw [foldl_lens L.get L.set L.get_set L.set_set L.set_get
    (fun m (p : Name × ℚ) => OMap.insert m p.1 (rnd p.2)), h0, foldl_insert_sorted rnd nd hs]
  rfl

/-- A list of names and numbers read into an empty map. -/
theorem goes_list {opts : List Name} {act : Nat → List Tok → RS α → RS α}
    {unknown : RS α → Res (RS α)} (L : Lens α ND) (n : Nat) (rnd : ℚ → ℚ)
    (hact : ∀ w q v r e, act n [.word w, .num q] ⟨v, some n, r, e⟩
      = ⟨L.set (OMap.insert (L.get v) w q) v, some n, r, e⟩)
    (nd : ND) (hp : ListOk opts nd) (s : RS α) (hs : s.save = some n) (h0 : L.get s.val = []) :
    Goes (flatStep opts act unknown) (dumpND rnd nd) s
      { s with val := L.set (rounded rnd nd) s.val } := by
  refine goes_eq (goes_pairs (put := fun w q v => L.set (OMap.insert (L.get v) w q) v) rnd ?_ nd
    hp.2 s hs) ?_
  · intro w q s hs
    obtain ⟨v, sv, r, e⟩ := s
    obtain rfl : sv = some n := hs
    exact hact w q v r e
  · rw [fold_list L rnd nd hp.1 _ h0]

theorem goes_list_outer {opts : List Name} {act : Nat → List Tok → RS α → RS α}
    {enter : Nat → List Tok → RS α → Option (RS α × Option ι)} {inner : Line → ι → Res ι}
    {close : RS α → ι → RS α}
    {unknown : RS α → Res (RS α × Option ι)} (L : Lens α ND) (n : Nat) (rnd : ℚ → ℚ)
    (hact : ∀ w q v r e, act n [.word w, .num q] ⟨v, some n, r, e⟩
      = ⟨L.set (OMap.insert (L.get v) w q) v, some n, r, e⟩)
    (nd : ND) (hp : ListOk opts nd) (s : RS α) (hs : s.save = some n) (h0 : L.get s.val = []) :
    Goes (nestStep (outerStep opts act enter unknown) inner close) (dumpND rnd nd) (s, none)
      ({ s with val := L.set (rounded rnd nd) s.val }, none) := by
  refine goes_eq (goes_pairs_outer (put := fun w q v => L.set (OMap.insert (L.get v) w q) v) rnd ?_
    nd hp.2 s hs) ?_
  · intro w q s hs
    obtain ⟨v, sv, r, e⟩ := s
    obtain rfl : sv = some n := hs
    exact hact w q v r e
  · rw [fold_list L rnd nd hp.1 _ h0]

/-- A name that is written only if it is not empty. -/
theorem goes_name {step : Line → σ → Res σ} {w : String} {n : Name} {s s' : σ}
    (h : step (optLine w [.word n]) s = .go s') (h0 : n = [] → s = s') :
    Goes step (nameLine w n) s s' := by
  unfold nameLine
  split
  · rename_i e; exact h0 e
  · exact goes_one h

theorem nest_opt {opts : List Name} {act : Nat → List Tok → RS α → RS α}
    {enter : Nat → List Tok → RS α → Option (RS α × Option ι)} {inner : Line → ι → Res ι}
    {close : RS α → ι → RS α} {unknown : RS α → Res (RS α × Option ι)} {w : String} (n : Nat)
    (rest : List Tok) (s : RS α)
    (ho : isOption ('-' :: w.toList) = true) (hf : findOption false opts w.toList = some n)
    (he : enter n rest s = none) :
    nestStep (outerStep opts act enter unknown) inner close (optLine w rest) (s, none)
      = .go (act n rest s, none) := outer_opt n rest s ho hf he

theorem goes_tag {κ ρ : Type} {step : Line → ρ → Res ρ} {a : List Line} {r r' : ρ}
    (h : Goes step a r r') (k : κ) : Goes (tagStep step) a (k, r) (k, r') := by
  induction a generalizing r with
  | nil => obtain rfl : r = r' := h; rfl
  | cons l a ih =>
    obtain ⟨t, h1, h2⟩ := h
    exact ⟨(k, t), by simp only [tagStep, h1], ih h2⟩

/-- The words are unknown to the reader. -/
def Unknown (opts : List Name) (W : List String) : Prop :=
  ∀ w ∈ W, isOption ('-' :: w.toList) = true ∧ findOption false opts w.toList = none

instance (opts : List Name) (W : List String) : Decidable (Unknown opts W) := by
  unfold Unknown; infer_instance

theorem flat_stop {opts : List Name} {act : Nat → List Tok → RS α → RS α} {W : List String}
    (hW : Unknown opts W) (w : String) (hw : w ∈ W) (rest : List Tok) (s : RS α) :
    flatStep opts act .stop (optLine w rest) s = .stop s :=
  flat_err rest s (hW w hw).1 (hW w hw).2

theorem tag_stop {κ ρ : Type} {step : Line → ρ → Res ρ} {l : Line} {r : ρ}
    (h : step l r = .stop r) (k : κ) : tagStep step l (k, r) = .stop (k, r) := by
  simp only [tagStep, h]

/-- The state stands at the end of a component (or outside of any): the option lines in `W` and
the end of the block are treated by the outer reader in state `s`. -/
def Ready (outer : Line → σ → Res (σ × Option ι)) (inner : Line → ι → Res ι) (close : σ → ι → σ)
    (W : List String) (p : σ × Option ι) (s : σ) : Prop :=
  nestEnd close p = s ∧
  ∀ w ∈ W, ∀ rest, nestStep outer inner close (optLine w rest) p = outer (optLine w rest) s

theorem ready_none {outer : Line → σ → Res (σ × Option ι)} {inner : Line → ι → Res ι}
    {close : σ → ι → σ} (W : List String) (s : σ) : Ready outer inner close W (s, none) s :=
  ⟨rfl, fun _ _ _ => rfl⟩

theorem ready_some {outer : Line → σ → Res (σ × Option ι)} {inner : Line → ι → Res ι}
    {close : σ → ι → σ} {W : List String} {s s' : σ} {i : ι}
    (h : ∀ w ∈ W, ∀ rest, inner (optLine w rest) i = .stop i) (e : close s i = s') :
    Ready outer inner close W (s, some i) s' := by
  refine ⟨e, fun w hw rest => ?_⟩
  rw [nest_stop (h w hw rest) rfl, e]

/-- A sequence of components. -/
theorem goes_comps {β : Type} {outer : Line → σ → Res (σ × Option ι)} {inner : Line → ι → Res ι}
    {close : σ → ι → σ} {W : List String} {cw : String} (hcw : cw ∈ W) (arg : β → List Tok)
    (body : β → List Line) (upd : σ → β → σ) (Q : σ → List β → Prop)
    (hstep : ∀ s c cs, Q s (c :: cs) → ∃ i i', outer (optLine cw (arg c)) s = .go (s, some i) ∧
      Goes inner (body c) i i' ∧ Ready outer inner close W (s, some i') (upd s c) ∧
      Q (upd s c) cs)
    (cs : List β) (p : σ × Option ι) (s : σ) (hp : Ready outer inner close W p s) (hq : Q s cs) :
    ∃ p', Goes (nestStep outer inner close)
        (cs.flatMap (fun c => optLine cw (arg c) :: body c)) p p' ∧
      Ready outer inner close W p' (cs.foldl upd s) := by
  induction cs generalizing p s with
  | nil => exact ⟨p, rfl, hp⟩
  | cons c cs ih =>
    obtain ⟨i, i', h1, h2, h3, h4⟩ := hstep s c cs hq
    obtain ⟨p', g, r⟩ := ih (s, some i') (upd s c) h3 h4
    refine ⟨p', ?_, r⟩
    rw [List.flatMap_cons, List.cons_append]
    refine goes_cons (s' := (s, some i)) ?_ (goes_append (goes_nest h2 s) g)
    rw [hp.2 cw hcw]; exact h1

/-- An option line of the outer reader after the components. -/
theorem goes_ready {outer : Line → σ → Res (σ × Option ι)} {inner : Line → ι → Res ι}
    {close : σ → ι → σ} {W : List String} {w : String} {rest : List Tok} {ls : List Line}
    {p : σ × Option ι} {s : σ} {t t' : σ × Option ι} (hp : Ready outer inner close W p s)
    (hw : w ∈ W) (h : outer (optLine w rest) s = .go t)
    (h' : Goes (nestStep outer inner close) ls t t') :
    Goes (nestStep outer inner close) (optLine w rest :: ls) p t' := by
  refine goes_cons (s' := t) ?_ h'
  rw [hp.2 w hw]; exact h

theorem trunc_int (i : Int) : (if (0 : ℚ) ≤ i then (i : ℚ).floor else (i : ℚ).ceil) = i := by
  split <;> simp

/-- A map by numbers, read under `opt_save = n` into an empty map. -/
theorem goes_intMap {opts : List Name} {act : Nat → List Tok → RS α → RS α}
    {unknown : RS α → Res (RS α)} (L : Lens α (SMap Int ℚ)) (n : Nat) (rnd : ℚ → ℚ)
    (hact : ∀ (i : Int) q v r e, act n [.num i, .num q] ⟨v, some n, r, e⟩
      = ⟨L.set (OMap.insert (L.get v) i q) v, some n, r, e⟩)
    (m : SMap Int ℚ) (hm : Sorted m) (s : RS α) (hs : s.save = some n) (h0 : L.get s.val = []) :
    Goes (flatStep opts act unknown) (dumpIntMap rnd m) s
      { s with val := L.set (rounded rnd m) s.val } := by
  have key : ∀ (m : SMap Int ℚ) (s : RS α), s.save = some n →
      Goes (flatStep opts act unknown) (dumpIntMap rnd m) s
        { s with val :=
          m.foldl (fun v p => L.set (OMap.insert (L.get v) p.1 (rnd p.2)) v) s.val } := by
    intro m
    induction m with
    | nil => intro s _; exact goes_nil _ _
    | cons p m ih =>
      intro s hs
      obtain ⟨v, sv, r, e⟩ := s
      obtain rfl : sv = some n := hs
      have g := ih ⟨L.set (OMap.insert (L.get v) p.1 (rnd p.2)) v, some n, r, e⟩ rfl
      have h : flatStep opts act unknown [.num p.1, .num (rnd p.2)] ⟨v, some n, r, e⟩
          = .go ⟨L.set (OMap.insert (L.get v) p.1 (rnd p.2)) v, some n, r, e⟩ := by
        have := hact p.1 (rnd p.2) v r e
        simp only [flatStep, getOption, this]
      exact ⟨_, h, g⟩
  refine goes_eq (key m s hs) ?_
  rw [foldl_lens L.get L.set L.get_set L.set_set L.set_get
    (fun m (p : Int × ℚ) => OMap.insert m p.1 (rnd p.2)), h0, foldl_insert_sorted rnd m hm]
  rfl

theorem readFlag_boolTok (set : Bool → α → α) (b : Bool) (s : RS α) :
    readFlag set [boolTok b] s = { s with val := set b s.val } := by
  cases b <;> rfl

theorem readInt_int (set : Int → α → α) (d i : Int) (s : RS α) :
    readInt set d [.num (i : ℚ)] s = { s with val := set i s.val } := by
  simp only [readInt, trunc_int]

theorem takeNums_map (qs : List ℚ) : takeNums (qs.map Tok.num) = qs := by
  induction qs with
  | nil => rfl
  | cons q qs ih => rw [List.map_cons, takeNums, ih]

/-- A vector of doubles, read by a reader that collects the numbers of a line. -/
theorem goes_numLinesFrom {step : Line → σ → Res σ} (push : List ℚ → σ → σ) (P : σ → Prop)
    (hP : ∀ l s, P s → P (push l s)) (h0 : ∀ s, P s → push [] s = s)
    (happ : ∀ a b s, P s → push b (push a s) = push (a ++ b) s)
    (hstep : ∀ q qs s, P s → step ((q :: qs).map Tok.num) s = .go (push (q :: qs) s))
    (rnd : ℚ → ℚ) (qs : List ℚ) (i : Nat) (cur : List ℚ) (s : σ) (hs : P s) :
    Goes step ((numLinesFrom rnd i (cur.map Tok.num) qs).filter (fun l => !l.isEmpty)) s
      (push (cur ++ qs.map rnd) s) := by
  have flush : ∀ (cur : List ℚ) (s : σ), P s →
      Goes step ([cur.map Tok.num].filter (fun l => !l.isEmpty)) s (push cur s) := by
    intro cur s hs
    cases cur with
    | nil => exact (h0 s hs).symm
    | cons q cur => exact goes_one (hstep q cur s hs)
  induction qs generalizing i cur s with
  | nil => simpa [numLinesFrom] using flush cur s hs
  | cons q qs ih =>
    unfold numLinesFrom
    split
    · rw [show ∀ (a : Line) l, a :: l = [a] ++ l from fun _ _ => rfl, List.filter_append]
      refine goes_append (flush cur s hs) (goes_eq (ih 0 [rnd q] (push cur s) (hP _ _ hs)) ?_)
      rw [happ _ _ _ hs]
      rfl
    · have := ih (i + 1) (cur ++ [rnd q]) s hs
      rw [List.map_append, List.append_assoc] at this
      exact this

theorem goes_numLines {step : Line → σ → Res σ} (push : List ℚ → σ → σ) (P : σ → Prop)
    (hP : ∀ l s, P s → P (push l s)) (h0 : ∀ s, P s → push [] s = s)
    (happ : ∀ a b s, P s → push b (push a s) = push (a ++ b) s)
    (hstep : ∀ q qs s, P s → step ((q :: qs).map Tok.num) s = .go (push (q :: qs) s))
    (rnd : ℚ → ℚ) (qs : List ℚ) (s : σ) (hs : P s) :
    Goes step (numLines rnd qs) s (push (qs.map rnd) s) :=
  goes_numLinesFrom push P hP h0 happ hstep rnd qs 0 [] s hs

theorem goes_nums_flat {opts : List Name} {act : Nat → List Tok → RS α → RS α}
    {unknown : RS α → Res (RS α)} (L : Lens α (List ℚ)) (n : Nat) (rnd : ℚ → ℚ)
    (hact : ∀ q qs v r e, act n ((q :: qs).map Tok.num) ⟨v, some n, r, e⟩
      = ⟨L.set (L.get v ++ q :: qs) v, some n, r, e⟩)
    (qs : List ℚ) (s : RS α) (hs : s.save = some n) :
    Goes (flatStep opts act unknown) (numLines rnd qs) s
      { s with val := L.set (L.get s.val ++ qs.map rnd) s.val } := by
  refine goes_numLines (fun l s => { s with val := L.set (L.get s.val ++ l) s.val })
    (fun s => s.save = some n) (fun _ _ h => h) ?_ ?_ ?_ rnd qs s hs
  · intro s _; rw [List.append_nil, L.set_get]
  · intro a b s _; simp only [L.get_set, L.set_set, List.append_assoc]
  · intro q qs s hs
    obtain ⟨v, sv, r, e⟩ := s
    obtain rfl : sv = some n := hs
    simp only [flatStep, List.map_cons, getOption]
    rw [← List.map_cons, hact]

theorem goes_nums_outer {opts : List Name} {act : Nat → List Tok → RS α → RS α}
    {enter : Nat → List Tok → RS α → Option (RS α × Option ι)} {inner : Line → ι → Res ι}
    {close : RS α → ι → RS α}
    {unknown : RS α → Res (RS α × Option ι)} (L : Lens α (List ℚ)) (n : Nat) (rnd : ℚ → ℚ)
    (hact : ∀ q qs v r e, act n ((q :: qs).map Tok.num) ⟨v, some n, r, e⟩
      = ⟨L.set (L.get v ++ q :: qs) v, some n, r, e⟩)
    (qs : List ℚ) (s : RS α) (hs : s.save = some n) :
    Goes (nestStep (outerStep opts act enter unknown) inner close) (numLines rnd qs) (s, none)
      ({ s with val := L.set (L.get s.val ++ qs.map rnd) s.val }, none) := by
  refine goes_numLines
    (fun l (p : RS α × Option ι) =>
      ({ p.1 with val := L.set (L.get p.1.val ++ l) p.1.val }, p.2))
    (fun p : RS α × Option ι => p.1.save = some n ∧ p.2 = none) (fun _ _ h => h) ?_ ?_ ?_ rnd qs (s, none) ⟨hs, rfl⟩
  · intro s _; rw [List.append_nil, L.set_get]
  · intro a b s _; simp only [L.get_set, L.set_set, List.append_assoc]
  · intro q qs p hp
    obtain ⟨⟨v, sv, r, e⟩, i⟩ := p
    obtain ⟨h1, h2⟩ := hp
    obtain rfl : sv = some n := h1
    obtain rfl : i = none := h2
    simp only [nestStep, outerStep, List.map_cons, getOption]
    rw [← List.map_cons, hact]

end Verif.Raw
