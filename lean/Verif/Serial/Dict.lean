import Verif.Base
import Verif.OMap.Basic

/-!
# Word dictionary

Model of `/repo/src/IPhreeqcPhast/IPhreeqc/phreeqcpp/Dictionary.cpp` and `Dictionary.h`.
-/

namespace Verif.Serial

open Verif.OMap

/-- `class Dictionary` (Dictionary.h): the map from word to number, the words by number and the
text sent to other processes. -/
structure Dict where
  map   : SMap (List Char) Nat
  words : List (List Char)
  text  : List Char

/-- `Dictionary()` (Dictionary.cpp:11-13). -/
def Dict.empty : Dict := ⟨[], [], []⟩

/-- `Find` (Dictionary.cpp:28-41). `MapSize()` is the size of the map. -/
def Dict.find (d : Dict) (w : List Char) : Dict × Nat :=
  match OMap.find d.map w with
  | some i => (d, i)
  | none   => (⟨OMap.insert d.map w d.map.length, d.words ++ [w], d.text ++ w ++ ['\n']⟩,
               d.map.length)

/-- `words_stream.getline(str, 256)` repeated until it fails (Dictionary.cpp:17-19): a line ends
at a newline or at the end of the text; a line of more than 255 characters sets the fail bit
and ends the loop; an empty rest fails. -/
def getlines : List Char → List Char → List (List Char)
  | [], acc => if acc = [] then [] else [acc]
  | c :: s, acc =>
    if c = '\n' then acc :: getlines s []
    else if acc.length = 255 then []
    else getlines s (acc ++ [c])

/-- `Dictionary(std::string &)` (Dictionary.cpp:15-23). The buffer is passed as a C string, so
a word stops at its first NUL. -/
def Dict.ofText (t : List Char) : Dict :=
  (getlines t []).foldl (fun d w => (d.find (w.takeWhile (· ≠ '\x00'))).1) Dict.empty

/-- Words that survive the text form. -/
def GoodWord (w : List Char) : Prop := '\n' ∉ w ∧ '\x00' ∉ w ∧ w.length ≤ 255

/-- Invariant of a dictionary built by `Find`. -/
structure Dict.WF (d : Dict) : Prop where
  sorted : Sorted d.map
  len    : d.map.length = d.words.length
  get    : ∀ w i, OMap.find d.map w = some i ↔ d.words[i]? = some w
  text   : d.text = d.words.flatMap (· ++ ['\n'])

/-- `d'` was obtained from `d` by adding words. -/
def Dict.Le (d d' : Dict) : Prop := d.words <+: d'.words

theorem Dict.wf_empty : Dict.empty.WF :=
  ⟨by simp [Sorted, Dict.empty], rfl, by simp [Dict.empty, OMap.find], rfl⟩

theorem insert_length_of_none {m : SMap (List Char) Nat} {k : List Char} {v : Nat}
    (h : OMap.find m k = none) : (OMap.insert m k v).length = m.length + 1 := by
  induction m with
  | nil => rfl
  | cons p m ih =>
    obtain ⟨a, w⟩ := p
    simp only [OMap.find] at h
    split at h
    · simp at h
    · rename_i hne
      simp only [OMap.insert]
      split
      · simp
      · simp [ih h]

theorem Dict.find_spec {d : Dict} (hd : d.WF) (w : List Char) :
    (d.find w).1.WF ∧ d.Le (d.find w).1 ∧ (d.find w).1.words[(d.find w).2]? = some w ∧
    (d.find w).1.words = if w ∈ d.words then d.words else d.words ++ [w] := by
  unfold Dict.find
  split
  · rename_i i h
    have hw := (hd.get w i).mp h
    refine ⟨hd, List.prefix_rfl, hw, ?_⟩
    rw [if_pos (List.mem_of_getElem? hw)]
  · rename_i h
    have hnw : w ∉ d.words := by
      intro hm
      obtain ⟨i, hi⟩ := List.mem_iff_getElem?.mp hm
      rw [(hd.get w i).mpr hi] at h
      simp at h
    refine ⟨⟨sorted_insert hd.sorted _ _, ?_, ?_, ?_⟩, List.prefix_append _ _, ?_, ?_⟩
    · rw [insert_length_of_none h]; simp [hd.len]
    · intro u i
      rw [find_insert]
      simp only [List.getElem?_append, hd.len]
      split
      · rename_i hu; subst hu
        constructor
        · intro hi
          simp only [Option.some.injEq] at hi
          subst hi
          simp
        · intro hi
          split at hi
          · rename_i hlt
            exact absurd (List.mem_of_getElem? hi) hnw
          · rename_i hge
            by_cases he : i = d.words.length
            · simp [he]
            · have : i - d.words.length ≠ 0 := by omega
              obtain ⟨n, hn⟩ := Nat.exists_eq_succ_of_ne_zero this
              simp [hn] at hi
      · rename_i hu
        rw [hd.get]
        split
        · rfl
        · rename_i hge
          have h1 : d.words[i]? = none := List.getElem?_eq_none (by omega)
          rw [h1]
          by_cases he : i - d.words.length = 0
          · simp [he]
            exact fun h : w = u => hu h.symm
          · obtain ⟨n, hn⟩ := Nat.exists_eq_succ_of_ne_zero he
            simp [hn]
    · simp [hd.text]
    · simp [hd.len]
    · rw [if_neg hnw]

theorem getlines_line (w : List Char) (hw : '\n' ∉ w) (rest acc : List Char)
    (hl : (acc ++ w).length ≤ 255) :
    getlines (w ++ '\n' :: rest) acc = (acc ++ w) :: getlines rest [] := by
  induction w generalizing acc with
  | nil => simp [getlines]
  | cons c w ih =>
    have hc : c ≠ '\n' := fun h => hw (h ▸ List.mem_cons_self)
    rw [List.cons_append, getlines, if_neg hc, if_neg, ih]
    · simp
    · exact fun h => hw (List.mem_cons_of_mem _ h)
    · simpa using hl
    · simp only [List.length_append, List.length_cons] at hl; omega

theorem getlines_words (ws : List (List Char)) (h : ∀ w ∈ ws, GoodWord w) :
    getlines (ws.flatMap (· ++ ['\n'])) [] = ws := by
  induction ws with
  | nil => simp [getlines]
  | cons w ws ih =>
    obtain ⟨h1, _, h3⟩ := h w List.mem_cons_self
    rw [List.flatMap_cons, List.append_assoc, List.singleton_append,
      getlines_line w h1 _ [] (by simpa using h3),
      ih (fun x hx => h x (List.mem_cons_of_mem _ hx))]
    simp

theorem foldl_find_words (ws : List (List Char)) (d : Dict) (hd : d.WF)
    (hg : ∀ w ∈ ws, '\x00' ∉ w) (hn : (d.words ++ ws).Nodup) :
    let r := ws.foldl (fun d w => (d.find (w.takeWhile (· ≠ '\x00'))).1) d
    r.WF ∧ r.words = d.words ++ ws := by
  induction ws generalizing d with
  | nil => exact ⟨hd, by simp⟩
  | cons w ws ih =>
    have hw : w.takeWhile (fun c => decide (c ≠ '\x00')) = w := by
      have h0 := hg w List.mem_cons_self
      clear hn ih hg
      induction w with
      | nil => rfl
      | cons c w ih =>
        have : c ≠ '\x00' := fun h => h0 (h ▸ List.mem_cons_self)
        rw [List.takeWhile_cons]
        simp only [this, ne_eq, not_false_eq_true, decide_true, if_true]
        rw [ih (fun h => h0 (List.mem_cons_of_mem _ h))]
    obtain ⟨h1, _, _, h4⟩ := Dict.find_spec hd w
    have hnot : w ∉ d.words := by
      intro hm
      have := List.nodup_append.mp hn
      exact this.2.2 w hm w List.mem_cons_self rfl
    rw [if_neg hnot] at h4
    simp only [List.foldl_cons]
    rw [hw]
    have := ih (d.find w).1 h1 (fun x hx => hg x (List.mem_cons_of_mem _ hx))
      (by rw [h4]; simpa using hn)
    rw [h4] at this
    simpa using this

theorem Dict.WF.nodup {d : Dict} (hd : d.WF) : d.words.Nodup := by
  refine List.pairwise_iff_getElem.mpr ?_
  intro i j hi hj hij heq
  have e1 : d.words[i]? = some d.words[i] := List.getElem?_eq_getElem hi
  have e2 : d.words[j]? = some d.words[i] := by rw [heq]; exact List.getElem?_eq_getElem hj
  have a := (hd.get _ _).mpr e1
  have b := (hd.get _ _).mpr e2
  rw [a] at b
  simp only [Option.some.injEq] at b
  omega

/-- Every word can be sent as text. -/
def Dict.Sendable (d : Dict) : Prop := ∀ w ∈ d.words, GoodWord w

/-- A dictionary rebuilt from its text has the same words with the same numbers. -/
theorem Dict.ofText_words {d : Dict} (hd : d.WF) (hg : d.Sendable) :
    (Dict.ofText d.text).WF ∧ (Dict.ofText d.text).words = d.words := by
  unfold Dict.ofText
  rw [hd.text, getlines_words d.words hg]
  have := foldl_find_words d.words Dict.empty Dict.wf_empty (fun w hw => (hg w hw).2.1)
    (by simpa [Dict.empty] using hd.nodup)
  simpa [Dict.empty] using this

end Verif.Serial
