import Verif.SelOut.Lemmas

/-! # Packing and unpacking of a row -/

namespace Verif.SelOut

open Verif.OMap Verif.Grid

/-- A C string: no NUL inside. -/
def CString (s : Name) : Prop := '\x00' ∉ s

/-- Values that hold C strings only. -/
def Var.Ok : Var → Prop
  | .str s => CString s
  | _ => True

theorem cstr_of_cstring {s : Name} (h : CString s) : cstr s = s := by
  unfold cstr
  unfold CString at h
  induction s with
  | nil => rfl
  | cons c s ih =>
    simp only [List.mem_cons, not_or] at h
    rw [List.takeWhile_cons_of_pos (by simpa using fun e => h.1 e.symm), ih h.2]

theorem toSize_nat (n : Nat) : toSize (n : Int) = n := by
  unfold toSize
  rw [if_neg (by omega)]
  simp

/-- What a value adds to the packed vectors. -/
def Var.types : Var → List Int
  | .empty => [0]
  | .error _ => [1]
  | .long _ => [2]
  | .dbl _ => [3]
  | .str _ => [4]

def Var.longs : Var → List Int
  | .error e => [e]
  | .long l => [l]
  | .str s => [(s.length : Int)]
  | _ => []

def Var.doubles : Var → List ℚ
  | .dbl d => [d]
  | _ => []

def Var.chars : Var → List Char
  | .str s => s
  | _ => []

theorem packVar_eq (p : Packed) (v : Var) :
    packVar p v = ⟨p.types ++ v.types, p.longs ++ v.longs, p.doubles ++ v.doubles,
      p.strings ++ v.chars⟩ := by
  cases v <;> simp [packVar, Var.types, Var.longs, Var.doubles, Var.chars]

theorem packHeads_eq (p : Packed) (hs : List Name) :
    packHeads p hs = ⟨p.types, p.longs ++ hs.map (fun h => (h.length : Int)), p.doubles,
      p.strings ++ hs.flatten⟩ := by
  unfold packHeads
  induction hs generalizing p with
  | nil => simp
  | cons h hs ih => rw [List.foldl_cons, ih]; simp

/-- The packed form of a row `vs` under headings `hs`. -/
def packed (hs : List Name) (vs : List Var) : Packed :=
  ⟨vs.flatMap Var.types,
   [1, (hs.length : Int)] ++ hs.map (fun h => (h.length : Int)) ++ vs.flatMap Var.longs,
   vs.flatMap Var.doubles, hs.flatten ++ vs.flatMap Var.chars⟩

theorem foldl_packVar (p : Packed) (vs : List Var) :
    vs.foldl packVar p = ⟨p.types ++ vs.flatMap Var.types, p.longs ++ vs.flatMap Var.longs,
      p.doubles ++ vs.flatMap Var.doubles, p.strings ++ vs.flatMap Var.chars⟩ := by
  induction vs generalizing p with
  | nil => simp
  | cons v vs ih => rw [List.foldl_cons, ih, packVar_eq]; simp

/-- Serialisation of a finished row of a table. -/
theorem serialize_eq {t : Table} {a : Abs} (hr : Rel t a) {r : Nat} {row : Row}
    (hrow : a.done[r]? = some row) :
    t.serialize (r : Int) = .ok (packed a.heads (a.heads.map (Row.value row))) := by
  unfold Table.serialize
  rw [hr.heads, packHeads_eq]
  have gen : ∀ (m : Nat), m ≤ a.heads.length → ∀ p : Packed,
      (List.range m).foldlM (fun p (j : Nat) => do
        let col ← idx t.cols (j : Int)
        let v ← idx col (r : Int)
        Out.ok (packVar p v)) p = .ok (((a.heads.take m).map (Row.value row)).foldl packVar p) := by
    intro m
    induction m with
    | zero => intro _ p; rfl
    | succ m ih =>
      intro hm p
      rw [List.range_succ, List.foldlM_append, ih (by omega) p]
      have hh : a.heads[m]? = some a.heads[m] := List.getElem?_eq_getElem (by omega)
      obtain ⟨col, c1, c2, _⟩ := rel_cell hr hh hrow
      simp only [Out.ok_bind, List.foldlM_cons, List.foldlM_nil, idx_nat c1, idx_nat c2,
        Out.pure_eq]
      rw [List.take_add_one, hh]
      simp only [Option.toList_some, List.map_append, List.map_cons, List.map_nil,
        List.foldl_append, List.foldl_cons, List.foldl_nil]
  have := gen a.heads.length (Nat.le_refl _)
    ⟨[], [1, (a.heads.length : Int)] ++ a.heads.map (fun h => (h.length : Int)), [],
      [] ++ a.heads.flatten⟩
  rw [this, List.take_length, foldl_packVar]
  simp [packed]

theorem serialize_nil {t : Table} (h : t.heads = []) (r : Int) :
    t.serialize r = .ok (packed [] []) := by
  simp [Table.serialize, h, packHeads, packed]

theorem idx_mid {α : Type} (pre : List α) (x : α) (post : List α) :
    idx (pre ++ x :: post) (pre.length : Int) = .ok x := by
  apply idx_nat
  simp

theorem substr_mid (pre s post : List Char) :
    substr (pre ++ s ++ post) pre.length s.length = .ok s := by
  unfold substr
  rw [if_neg (by simp)]
  simp [List.append_assoc]

theorem readHeads_eq (p : Packed) (hs : List Name) (L : List Int) (S : List Char) (l2 : List Int)
    (s2 : List Char) (q : Pos)
    (hl : p.longs = L ++ hs.map (fun h => (h.length : Int)) ++ l2)
    (hs' : p.strings = S ++ hs.flatten ++ s2) (hql : q.l = L.length) (hqs : q.s = S.length) :
    readHeads p hs.length q =
      .ok (hs, { q with l := L.length + hs.length, s := S.length + hs.flatten.length }) := by
  induction hs generalizing L S q with
  | nil =>
    simp only [List.length_nil, readHeads, Nat.add_zero, List.flatten_nil]
    rw [← hql, ← hqs]
  | cons h hs ih =>
    simp only [List.length_cons, readHeads]
    have e1 : idx p.longs (q.l : Int) = .ok (h.length : Int) := by
      rw [hl, hql]
      simp only [List.map_cons, List.append_assoc, List.cons_append]
      exact idx_mid _ _ _
    have e2 : substr p.strings q.s h.length = .ok h := by
      rw [hs', hqs]
      simp only [List.flatten_cons, List.append_assoc]
      rw [← List.append_assoc]
      exact substr_mid _ _ _
    rw [e1]
    simp only [Out.ok_bind, toSize_nat, e2]
    rw [ih (L ++ [(h.length : Int)]) (S ++ h) { q with l := q.l + 1, s := q.s + h.length }
      (by rw [hl]; simp) (by rw [hs']; simp) (by simp [hql]) (by simp [hqs])]
    simp only [Out.ok_bind, Out.ok.injEq, Prod.mk.injEq, List.length_append, List.length_cons,
      List.length_nil, List.flatten_cons, true_and]
    simp only [Pos.mk.injEq, true_and]
    constructor
    · omega
    · omega

/-- One value is read back and pushed. -/
theorem readVar_eq (p : Packed) (h : Name) (v : Var) (T L : List Int) (D : List ℚ) (S : List Char)
    (t2 l2 : List Int) (d2 : List ℚ) (s2 : List Char)
    (ht : p.types = T ++ v.types ++ t2) (hl : p.longs = L ++ v.longs ++ l2)
    (hd : p.doubles = D ++ v.doubles ++ d2) (hs : p.strings = S ++ v.chars ++ s2)
    (hh : CString h) (hv : v.Ok) (t : Table) :
    readVar p h ⟨T.length, L.length, D.length, S.length⟩ t =
      (t.pushBack h v >>= fun t' => .ok (t', ⟨(T ++ v.types).length, (L ++ v.longs).length,
        (D ++ v.doubles).length, (S ++ v.chars).length⟩)) := by
  have ety : ∀ ty, v.types = [ty] → idx p.types (T.length : Int) = .ok ty := by
    intro ty e
    rw [ht, e]
    simp only [List.append_assoc, List.cons_append]
    exact idx_mid _ _ _
  have elo : ∀ x, v.longs = [x] → idx p.longs (L.length : Int) = .ok x := by
    intro ty e
    rw [hl, e]
    simp only [List.append_assoc, List.cons_append]
    exact idx_mid _ _ _
  have edo : ∀ x, v.doubles = [x] → idx p.doubles (D.length : Int) = .ok x := by
    intro ty e
    rw [hd, e]
    simp only [List.append_assoc, List.cons_append]
    exact idx_mid _ _ _
  unfold readVar
  simp only [cstr_of_cstring hh]
  cases v with
  | empty =>
    rw [ety 0 rfl]
    simp [Var.types, Var.longs, Var.doubles, Var.chars]
  | error e =>
    rw [ety 1 rfl, elo e rfl]
    simp [Var.types, Var.longs, Var.doubles, Var.chars]
  | long e =>
    rw [ety 2 rfl, elo e rfl]
    simp [Var.types, Var.longs, Var.doubles, Var.chars]
  | dbl e =>
    rw [ety 3 rfl, edo e rfl]
    simp [Var.types, Var.longs, Var.doubles, Var.chars]
  | str s =>
    have e2 : substr p.strings S.length s.length = .ok s := by
      rw [hs]
      exact substr_mid _ _ _
    rw [ety 4 rfl, elo (s.length : Int) rfl]
    simp [Var.types, Var.longs, Var.doubles, Var.chars, toSize_nat, e2, cstr_of_cstring hv]

theorem readAll_eq (p : Packed) (hvs : List (Name × Var)) (T L : List Int) (D : List ℚ)
    (S : List Char)
    (ht : p.types = T ++ hvs.flatMap (fun x => x.2.types))
    (hl : p.longs = L ++ hvs.flatMap (fun x => x.2.longs))
    (hd : p.doubles = D ++ hvs.flatMap (fun x => x.2.doubles))
    (hs : p.strings = S ++ hvs.flatMap (fun x => x.2.chars))
    (hh : ∀ x ∈ hvs, CString x.1 ∧ x.2.Ok) {t : Table} {a : Abs} (hr : Rel t a) :
    ∃ t' q', (hvs.map Prod.fst).foldlM (fun (tq : Table × Pos) h => readVar p h tq.2 tq.1)
        (t, ⟨T.length, L.length, D.length, S.length⟩) = .ok (t', q') ∧
      Rel t' ((hvs.map (fun x => Op.push x.1 x.2)).foldl Abs.step a) := by
  induction hvs generalizing T L D S t a with
  | nil => exact ⟨t, _, rfl, hr⟩
  | cons x hvs ih =>
    obtain ⟨h, v⟩ := x
    obtain ⟨hc, hv⟩ := hh (h, v) List.mem_cons_self
    obtain ⟨t1, h1, h2⟩ := rel_push hr h v
    have e := readVar_eq p h v T L D S _ _ _ _ (by rw [ht, List.flatMap_cons, List.append_assoc])
      (by rw [hl, List.flatMap_cons, List.append_assoc])
      (by rw [hd, List.flatMap_cons, List.append_assoc])
      (by rw [hs, List.flatMap_cons, List.append_assoc]) hc hv t
    rw [h1] at e
    simp only [Out.ok_bind] at e
    obtain ⟨t2, q2, h3, h4⟩ := ih (T ++ v.types) (L ++ v.longs) (D ++ v.doubles) (S ++ v.chars)
      (by rw [ht, List.flatMap_cons, List.append_assoc])
      (by rw [hl, List.flatMap_cons, List.append_assoc])
      (by rw [hd, List.flatMap_cons, List.append_assoc])
      (by rw [hs, List.flatMap_cons, List.append_assoc])
      (fun x hx => hh x (List.mem_cons_of_mem _ hx)) h2
    refine ⟨t2, q2, ?_, h4⟩
    rw [List.map_cons, List.foldlM_cons]
    simp only
    rw [e]
    exact h3

/-- Unpacking a packed row pushes its values and ends the row. -/
theorem deSerialize_eq (hs : List Name) (f : Name → Var)
    (hh : ∀ h ∈ hs, CString h ∧ (f h).Ok) {t : Table} {a : Abs} (hr : Rel t a) :
    ∃ t', t.deSerialize (packed hs (hs.map f)) = .ok t' ∧
      Rel t' ((hs.map (fun h => Op.push h (f h)) ++ [Op.endRow]).foldl Abs.step a) := by
  unfold Table.deSerialize
  have e0 : idx (packed hs (hs.map f)).longs 0 = .ok 1 := by simp [packed, idx]
  have e1 : idx (packed hs (hs.map f)).longs 1 = .ok (hs.length : Int) := by simp [packed, idx]
  rw [e0, e1]
  simp only [Out.ok_bind, toSize_nat]
  rw [readHeads_eq _ hs [1, (hs.length : Int)] [] ((hs.map f).flatMap Var.longs)
    ((hs.map f).flatMap Var.chars) _ (by simp [packed]) (by simp [packed]) rfl rfl]
  simp only [Out.ok_bind]
  have hone : toSize 1 = 1 := rfl
  rw [hone]
  have hfun : (fun (tq : Table × Pos) h =>
      (List.range 1).foldlM (fun (tq : Table × Pos) _ =>
        readVar (packed hs (hs.map f)) h tq.2 tq.1) tq) =
      fun (tq : Table × Pos) h => readVar (packed hs (hs.map f)) h tq.2 tq.1 := by
    funext tq h
    simp only [List.range_one, List.foldlM_cons, List.foldlM_nil, bind_pure]
  rw [hfun]
  obtain ⟨t1, q1, h1, h2⟩ := readAll_eq (packed hs (hs.map f)) (hs.map (fun h => (h, f h))) []
    ([1, (hs.length : Int)] ++ hs.map (fun h => (h.length : Int))) [] hs.flatten
    (by simp [packed, List.flatMap_map]) (by simp [packed, List.flatMap_map])
    (by simp [packed, List.flatMap_map]) (by simp [packed, List.flatMap_map])
    (by
      intro x hx
      obtain ⟨h, hm, rfl⟩ := List.mem_map.mp hx
      exact hh h hm) hr
  have hmap : (hs.map (fun h => (h, f h))).map Prod.fst = hs := by
    rw [List.map_map]
    simp [Function.comp_def]
  rw [hmap] at h1
  obtain ⟨t2, h3, h4⟩ := rel_endRow h2
  refine ⟨t2, ?_, ?_⟩
  · have hpos : (⟨0, [1, (hs.length : Int)].length + hs.length, 0,
        ([] : List Char).length + hs.flatten.length⟩ : Pos) =
        ⟨([] : List Int).length, ([1, (hs.length : Int)] ++ hs.map (fun h => (h.length : Int))).length,
          ([] : List ℚ).length, hs.flatten.length⟩ := by
      simp; omega
    rw [hpos, h1]
    exact h3
  · rw [List.foldl_append]
    have : (hs.map (fun h => (h, f h))).map (fun x => Op.push x.1 x.2) =
        hs.map (fun h => Op.push h (f h)) := by
      rw [List.map_map]; rfl
    rw [this] at h4
    exact h4

end Verif.SelOut
