import Verif.AutoOutput.Props
import Mathlib.Data.List.Nodup
import Mathlib.Data.List.Infix

/-!
# When the generated names are distinct

Sufficient conditions on the lists from `FindComponents` and on the given words.
-/

namespace Verif.AutoOutput

open Verif.OMap

/-- No two words equal up to case. -/
def DistinctUpToCase (l : List Name) : Prop := (l.map lower).Nodup

/-- Conditions on the lists: in each family the items differ up to case; no exchanger or surface
is called `total_molality…`; no species contains `species_log_molality_` and no component of a
solid solution contains `moles_`. -/
structure Plain (L : Lists) (defs : OutVar → Name) : Prop where
  elements : DistinctUpToCase (items (defs .SolutionTotalMolalities) L.elements)
  specM    : DistinctUpToCase (items (defs .SolutionMolalities) L.species)
  specA    : DistinctUpToCase (items (defs .SolutionActivities) L.species)
  equi     : DistinctUpToCase (items (defs .EquilibriumPhases) L.equi)
  gases    : DistinctUpToCase (items (defs .Gases) L.gases)
  kin      : DistinctUpToCase (items (defs .KineticReactants) L.kin)
  calcs    : DistinctUpToCase (items (defs .CalculateValues) L.calcs)
  si       : DistinctUpToCase (items (defs .SaturationIndices) L.si)
  exch     : DistinctUpToCase (items (defs .ExchangeMolalities) (L.exchange.map Prod.fst))
  exchTot  : DistinctUpToCase (OSet.insAll [] (L.exchange.map Prod.snd))
  surf     : DistinctUpToCase (items (defs .SurfaceMolalities) (L.surface.map Prod.fst))
  surfTot  : DistinctUpToCase (OSet.insAll [] (L.surface.map Prod.snd))
  ss       : DistinctUpToCase (items (defs .SolidSolutions) (L.ss.map Prod.fst))
  exchWord : ∀ p ∈ L.exchange, ¬ "total_molality".toList <+: lower p.2 ∧
    ¬ "species_log_molality_".toList <:+: lower p.1
  surfWord : ∀ p ∈ L.surface, ¬ "total_molality".toList <+: lower p.2 ∧
    ¬ "species_log_molality_".toList <:+: lower p.1
  ssWord   : ∀ p ∈ L.ss, ¬ "moles_".toList <:+: lower p.1

theorem lower_append (a b : Name) : lower (a ++ b) = lower a ++ lower b := List.map_append

/-! ### A marker between two words -/

/-- `b` does not overlap itself except in its first and last letter. -/
def Stiff (b : Name) : Prop :=
  ∀ d, 0 < d → d + 1 < b.length → ∃ k, k + d < b.length ∧ b[k]? ≠ b[k + d]?

theorem marker_le (b : Name) (hb : Stiff b) {x₁ x₂ i₁ i₂ : Name} (hle : i₁.length ≤ i₂.length)
    (h : x₁ ++ (b ++ i₁) = x₂ ++ (b ++ i₂)) (h2 : ¬ b.tail <:+: i₂) : i₁ = i₂ := by
  have hl := congrArg List.length h
  simp only [List.length_append] at hl
  by_cases hd : i₁.length = i₂.length
  · have := (List.append_inj' h (by simp [hd])).2
    exact (List.append_inj' this hd).2
  · exfalso
    by_cases hs : i₂.length - i₁.length + 1 < b.length
    · obtain ⟨k, hk, hne⟩ := hb (i₂.length - i₁.length) (by omega) hs
      have e1 : (x₁ ++ (b ++ i₁))[x₁.length + k]? = b[k]? := by
        rw [List.getElem?_append_right (by omega), List.getElem?_append_left (by omega)]
        congr 1; omega
      have e2 : (x₂ ++ (b ++ i₂))[x₁.length + k]? = b[k + (i₂.length - i₁.length)]? := by
        rw [List.getElem?_append_right (by omega), List.getElem?_append_left (by omega)]
        congr 1; omega
      have e : b[k]? = b[k + (i₂.length - i₁.length)]? := by rw [← e1, ← e2, h]
      exact hne e
    · apply h2
      cases b with
      | nil => exact List.nil_infix
      | cons c t =>
        simp only [List.length_cons] at hl hs
        have e2 : (x₂ ++ (c :: t ++ i₂)).drop (x₂.length + (t.length + 1)) = i₂ := by
          rw [← List.append_assoc]
          exact List.drop_left' (by simp)
        have e' : x₁ ++ (c :: t ++ i₁) = (x₁ ++ [c]) ++ (t ++ i₁) := by simp
        have e := e2
        rw [← h, e', List.drop_append_of_le_length (by
          simp only [List.length_append, List.length_cons, List.length_nil]; omega)] at e
        exact ⟨_, _, by rw [List.append_assoc]; exact e⟩

theorem marker (b : Name) (hb : Stiff b) {x₁ x₂ i₁ i₂ : Name}
    (h : x₁ ++ (b ++ i₁) = x₂ ++ (b ++ i₂)) (h1 : ¬ b.tail <:+: i₁) (h2 : ¬ b.tail <:+: i₂) :
    i₁ = i₂ := by
  rcases Nat.le_total i₁.length i₂.length with hl | hl
  · exact marker_le b hb hl h h2
  · exact (marker_le b hb hl h.symm h1).symm

theorem stiff_of (b : Name)
    (h : ∀ d ∈ List.range b.length, 0 < d → d + 1 < b.length →
      ∃ k ∈ List.range b.length, k + d < b.length ∧ b[k]? ≠ b[k + d]?) : Stiff b := by
  intro d h0 h1
  obtain ⟨k, -, hk⟩ := h d (List.mem_range.mpr (by omega)) h0 h1
  exact ⟨k, hk⟩

theorem stiff_species : Stiff "_species_log_molality_".toList := stiff_of _ (by decide +kernel)
theorem stiff_moles : Stiff "_moles_".toList := stiff_of _ (by decide +kernel)

/-- An owner's name after which the total's prefix would begin. -/
theorem total_owner {x i j : Name}
    (h : x ++ ("_species_log_molality_".toList ++ i) = "total_molality_".toList ++ j) :
    "total_molality".toList <+: x := by
  have key : ∀ r ∈ ("total_molality_".toList).tails, r <+: "_species_log_molality_".toList →
      r = [] ∨ r = ['_'] := by decide +kernel
  have h1 : x <+: "total_molality_".toList ++ j := ⟨_, h⟩
  have h2 : "total_molality_".toList <+: "total_molality_".toList ++ j := ⟨_, rfl⟩
  rcases List.prefix_or_prefix_of_prefix h1 h2 with hp | hp
  · obtain ⟨r, hr⟩ := hp
    rw [← hr, List.append_assoc] at h
    have h3 := List.append_cancel_left h
    have hrl : r.length ≤ ("_species_log_molality_".toList).length := by
      have := congrArg List.length hr
      simp only [List.length_append] at this
      have e : ("total_molality_".toList).length = 15 := by decide
      have e' : ("_species_log_molality_".toList).length = 22 := by decide
      omega
    have hpre : r <+: "_species_log_molality_".toList :=
      List.prefix_of_prefix_length_le (l₃ := r ++ j) ⟨_, rfl⟩ ⟨_, h3⟩ hrl
    have hs : r ∈ ("total_molality_".toList).tails := (List.mem_tails _ _).mpr ⟨x, hr⟩
    rcases key r hs hpre with rfl | rfl
    · rw [List.append_nil] at hr
      rw [hr]; exact ⟨['_'], by decide⟩
    · have : x = "total_molality".toList := by
        have e : "total_molality_".toList = "total_molality".toList ++ ['_'] := by decide
        rw [e] at hr
        exact List.append_cancel_right hr
      rw [this]
  · exact List.IsPrefix.trans ⟨['_'], by decide⟩ hp

/-! ### Families -/

def Fam.all : List Fam :=
  [.ph, .pe, .alk, .mu, .water, .charge, .pct, .sc, .totMol, .specA, .specM, .satIdx, .exchTot,
   .exchSpec, .surfTot, .surfSpec, .equi, .equiDelta, .gasVol, .gasMol, .gasP, .gasPhi, .kin,
   .kinDelta, .ss, .calc]

theorem Fam.mem_all (f : Fam) : f ∈ Fam.all := by cases f <;> decide

/-- Families whose name has no item. -/
def Fam.fixed : Fam → Bool
  | .ph | .pe | .alk | .mu | .water | .charge | .pct | .sc | .gasVol => true
  | _ => false

theorem stem_prefix (f g : Fam) (hf : f.fixed = false) (h : f.stem.toList <+: g.stem.toList) :
    f = g := by
  have : ∀ f ∈ Fam.all, ∀ g ∈ Fam.all, f.fixed = false → f.stem.toList <+: g.stem.toList → f = g := by
    decide +kernel
  exact this f f.mem_all g g.mem_all hf h

theorem stem_inj (f g : Fam) (h : f.stem.toList = g.stem.toList) : f = g := by
  have : ∀ f ∈ Fam.all, ∀ g ∈ Fam.all, f.stem.toList = g.stem.toList → f = g := by
    decide +kernel
  exact this f f.mem_all g g.mem_all h

theorem stem_lower (f : Fam) : lower f.stem.toList = f.stem.toList := by
  have : ∀ f ∈ Fam.all, lower f.stem.toList = f.stem.toList := by decide +kernel
  exact this f f.mem_all

theorem around_lower (f : Fam) (a b : String) (h : f.around = some (a, b)) :
    lower a.toList = a.toList ∧ lower b.toList = b.toList := by
  have : ∀ f ∈ Fam.all, ∀ p ∈ f.around, lower p.1.toList = p.1.toList ∧
      lower p.2.toList = p.2.toList := by decide +kernel
  exact this f f.mem_all (a, b) h

/-- Which stems go together with the beginning of a name with owner. -/
theorem around_stem (f g : Fam) (a b : String) (h : f.around = some (a, b))
    (hc : a.toList <+: g.stem.toList ∨ g.stem.toList <+: a.toList) :
    g = f ∨ (f = .exchSpec ∧ g = .exchTot) ∨ (f = .surfSpec ∧ g = .surfTot) := by
  have : ∀ f ∈ Fam.all, ∀ g ∈ Fam.all, ∀ p ∈ f.around,
      p.1.toList <+: g.stem.toList ∨ g.stem.toList <+: p.1.toList →
      g = f ∨ (f = .exchSpec ∧ g = .exchTot) ∨ (f = .surfSpec ∧ g = .surfTot) := by
    decide +kernel
  exact this f f.mem_all g g.mem_all (a, b) h hc

theorem around_around (f g : Fam) (a b a' b' : String) (h : f.around = some (a, b))
    (h' : g.around = some (a', b')) (hc : a.toList <+: a'.toList ∨ a'.toList <+: a.toList) :
    f = g := by
  have : ∀ f ∈ Fam.all, ∀ g ∈ Fam.all, ∀ p ∈ f.around, ∀ q ∈ g.around,
      p.1.toList <+: q.1.toList ∨ q.1.toList <+: p.1.toList → f = g := by
    decide +kernel
  exact this f f.mem_all g g.mem_all (a, b) h (a', b') h' hc

/-- What the conditions say about one entry. -/
structure Good (e : Entry) : Prop where
  fixed : e.fam.fixed = true → e.item = []
  owner : ∀ x, e.owner = some x → ∃ a b, e.fam.around = some (a, b) ∧
    (e.fam ≠ .ss → ¬ "total_molality".toList <+: lower x) ∧ ¬ b.toList.tail <:+: lower e.item

theorem name_plain (e : Entry) (h : e.owner = none) :
    lower e.name = e.fam.stem.toList ++ lower e.item := by
  unfold Entry.name
  rw [h]
  dsimp only
  rw [lower_append, stem_lower]

theorem name_owned (e : Entry) (x : Name) (a b : String) (h : e.owner = some x)
    (ha : e.fam.around = some (a, b)) :
    lower e.name = a.toList ++ (lower x ++ (b.toList ++ lower e.item)) := by
  unfold Entry.name
  rw [h, ha]
  dsimp only
  rw [lower_append, lower_append, lower_append, (around_lower _ _ _ ha).1,
    (around_lower _ _ _ ha).2]

theorem mixed_names (e e' : Entry) (h : Good e) (x : Name) (hx : e.owner = some x)
    (hx' : e'.owner = none) (heq : lower e.name = lower e'.name) : e'.fam = e.fam := by
  obtain ⟨a, b, ha, h1, h2⟩ := h.owner x hx
  rw [name_owned e x a b hx ha, name_plain e' hx'] at heq
  have hc : a.toList <+: e'.fam.stem.toList ∨ e'.fam.stem.toList <+: a.toList :=
    List.prefix_or_prefix_of_prefix (l₃ := a.toList ++ (lower x ++ (b.toList ++ lower e.item)))
      ⟨_, rfl⟩ ⟨_, heq.symm⟩
  rcases around_stem _ _ a b ha hc with h3 | ⟨h3, h4⟩ | ⟨h3, h4⟩
  · exact h3
  · exfalso
    rw [h3] at ha
    cases ha
    have es : Fam.exchTot.stem.toList = "exchange_".toList ++ "total_molality_".toList := by decide
    rw [h4, es, List.append_assoc] at heq
    exact h1 (by rw [h3]; decide) (total_owner (List.append_cancel_left heq))
  · exfalso
    rw [h3] at ha
    cases ha
    have es : Fam.surfTot.stem.toList = "surface_".toList ++ "total_molality_".toList := by decide
    rw [h4, es, List.append_assoc] at heq
    exact h1 (by rw [h3]; decide) (total_owner (List.append_cancel_left heq))

/-- Equal names: same family and same item, provided a family is not shown both with and
without owner. -/
theorem name_inj (e e' : Entry) (h : Good e) (h' : Good e')
    (hom : e.fam = e'.fam → (e.owner = none ↔ e'.owner = none))
    (heq : lower e.name = lower e'.name) : e.fam = e'.fam ∧ lower e.item = lower e'.item := by
  cases hx : e.owner with
  | none =>
    cases hx' : e'.owner with
    | none =>
      rw [name_plain e hx, name_plain e' hx'] at heq
      have hfam : e.fam = e'.fam := by
        have hc : e.fam.stem.toList <+: e'.fam.stem.toList ∨
            e'.fam.stem.toList <+: e.fam.stem.toList :=
          List.prefix_or_prefix_of_prefix (l₃ := e.fam.stem.toList ++ lower e.item)
            ⟨_, rfl⟩ ⟨_, heq.symm⟩
        cases hf : e.fam.fixed with
        | true =>
          have hi := h.fixed hf
          cases hf' : e'.fam.fixed with
          | true =>
            have hi' := h'.fixed hf'
            rw [hi, hi'] at heq
            exact stem_inj _ _ (by simpa [BMI.lower] using heq)
          | false =>
            rw [hi] at heq
            exact (stem_prefix _ _ hf' ⟨lower e'.item, by rw [← heq]; simp [BMI.lower]⟩).symm
        | false =>
          cases hf' : e'.fam.fixed with
          | true =>
            rw [h'.fixed hf'] at heq
            exact stem_prefix _ _ hf ⟨lower e.item, by rw [heq]; simp [BMI.lower]⟩
          | false =>
            rcases hc with hc | hc
            · exact stem_prefix _ _ hf hc
            · exact (stem_prefix _ _ hf' hc).symm
      refine ⟨hfam, ?_⟩
      rw [hfam] at heq
      exact List.append_cancel_left heq
    | some x' =>
      have := mixed_names e' e h' x' hx' hx heq.symm
      exact absurd ((hom this).mp hx) (by rw [hx']; exact fun h => nomatch h)
  | some x =>
    cases hx' : e'.owner with
    | none =>
      have := mixed_names e e' h x hx hx' heq
      exact absurd ((hom this.symm).mpr hx') (by rw [hx]; exact fun h => nomatch h)
    | some x' =>
      obtain ⟨a, b, ha, h1, h2⟩ := h.owner x hx
      obtain ⟨a', b', ha', h1', h2'⟩ := h'.owner x' hx'
      rw [name_owned e x a b hx ha, name_owned e' x' a' b' hx' ha'] at heq
      have hc : a.toList <+: a'.toList ∨ a'.toList <+: a.toList :=
        List.prefix_or_prefix_of_prefix
          (l₃ := a.toList ++ (lower x ++ (b.toList ++ lower e.item))) ⟨_, rfl⟩ ⟨_, heq.symm⟩
      have hfam := around_around _ _ a b a' b' ha ha' hc
      refine ⟨hfam, ?_⟩
      rw [← hfam, ha] at ha'
      cases ha'
      have hb : Stiff b.toList := by
        cases hf : e.fam <;> rw [hf] at ha <;> cases ha
        · exact stiff_species
        · exact stiff_species
        · exact stiff_moles
      exact marker _ hb (List.append_cancel_left heq) h2 h2'

/-! ### The whole list -/

def Fam.home : Fam → OutVar
  | .ph | .pe | .alk | .mu | .water | .charge | .pct | .sc => .SolutionProperties
  | .totMol => .SolutionTotalMolalities
  | .specA => .SolutionActivities
  | .specM => .SolutionMolalities
  | .satIdx => .SaturationIndices
  | .exchTot | .exchSpec => .ExchangeMolalities
  | .surfTot | .surfSpec => .SurfaceMolalities
  | .equi | .equiDelta => .EquilibriumPhases
  | .gasVol | .gasMol | .gasP | .gasPhi => .Gases
  | .kin | .kinDelta => .KineticReactants
  | .ss => .SolidSolutions
  | .calc => .CalculateValues

/-- What identifies a variable. -/
def Entry.key (e : Entry) : Fam × Name := (e.fam, lower e.item)

theorem owners_find (l : List (Name × Name)) (i : Name) :
    (i ∈ l.map Prod.fst → ∃ x, find (owners l) i = some x ∧ (i, x) ∈ l) ∧
    (i ∉ l.map Prod.fst → find (owners l) i = none) := by
  have gen : ∀ (l : List (Name × Name)) (m : SMap Name Name),
      (i ∈ l.map Prod.fst → ∃ x, find (l.foldl (fun m p => OMap.insert m p.1 p.2) m) i = some x ∧
        (i, x) ∈ l) ∧
      (i ∉ l.map Prod.fst → find (l.foldl (fun m p => OMap.insert m p.1 p.2) m) i = find m i) := by
    intro l
    induction l with
    | nil => intro m; exact ⟨by simp, fun _ => rfl⟩
    | cons p l ih =>
      intro m
      obtain ⟨h1, h2⟩ := ih (OMap.insert m p.1 p.2)
      constructor
      · intro hi
        by_cases hl : i ∈ l.map Prod.fst
        · obtain ⟨x, hx, hm⟩ := h1 hl
          exact ⟨x, hx, List.mem_cons_of_mem _ hm⟩
        · have : i = p.1 := by
            rw [List.map_cons, List.mem_cons] at hi
            exact hi.resolve_right hl
          refine ⟨p.2, ?_, by rw [this]; exact List.mem_cons_self⟩
          rw [List.foldl_cons, h2 hl, find_insert, if_pos this]
      · intro hi
        rw [List.map_cons, List.mem_cons, not_or] at hi
        rw [List.foldl_cons, h2 hi.2, find_insert, if_neg hi.1]
  exact gen l []

/-- Nodup of the keys of one family over distinct items. -/
theorem keys_family (g : Name → Entry) (f : Fam) (l : List Name) (hl : DistinctUpToCase l)
    (hg : ∀ i, (g i).fam = f ∧ (g i).item = i) : ((l.map g).map Entry.key).Nodup := by
  rw [List.map_map]
  have : (Entry.key ∘ g) = (fun k => (f, k)) ∘ lower := by
    funext i
    simp only [Function.comp, Entry.key, (hg i).1, (hg i).2]
  rw [this, ← List.map_map]
  exact List.Pairwise.map _ (fun a b hab e => hab (by cases e; rfl)) hl

/-- Nodup of the keys when each item gives several variables of different families. -/
theorem keys_families (fs : List Fam) (hfs : fs.Nodup) (l : List Name)
    (hl : DistinctUpToCase l) :
    ((l.flatMap (fun i => fs.map (fun f => (⟨f, none, i⟩ : Entry)))).map Entry.key).Nodup := by
  induction l with
  | nil => exact List.Pairwise.nil
  | cons i l ih =>
    have hl' := List.nodup_cons.mp (show (lower i :: l.map lower).Nodup from hl)
    rw [List.flatMap_cons, List.map_append, List.nodup_append]
    refine ⟨?_, ih hl'.2, ?_⟩
    · rw [List.map_map]
      exact List.Pairwise.map _ (fun a b hab e => hab (by cases e; rfl)) hfs
    · intro a ha b hb hab
      subst hab
      rw [List.map_map, List.mem_map] at ha
      obtain ⟨f, -, rfl⟩ := ha
      rw [List.mem_map] at hb
      obtain ⟨e, he, hk⟩ := hb
      rw [List.mem_flatMap] at he
      obtain ⟨j, hj, he⟩ := he
      rw [List.mem_map] at he
      obtain ⟨f', -, rfl⟩ := he
      have : lower j = lower i := congrArg Prod.snd hk
      exact hl'.1 (List.mem_map.mpr ⟨j, hj, this⟩)

theorem owned_shape (tot spec : Fam) (d : Name) (l : List (Name × Name)) (e : Entry)
    (he : e ∈ owned tot spec d l) :
    (e.fam = tot ∧ e.owner = none) ∨
    (e.fam = spec ∧ processDef d = .on ∧ ∃ x, e.owner = some x ∧ (e.item, x) ∈ l) ∨
    (e.fam = spec ∧ processDef d ≠ .on ∧ e.owner = none) := by
  unfold owned at he
  cases hp : processDef d with
  | off => rw [hp] at he; simp at he
  | on =>
    rw [hp] at he
    dsimp only at he
    rcases List.mem_append.mp he with he | he
    · obtain ⟨x, -, rfl⟩ := List.mem_map.mp he
      exact .inl ⟨rfl, rfl⟩
    · obtain ⟨i, hi, rfl⟩ := List.mem_map.mp he
      rw [OSet.mem_insAll] at hi
      obtain ⟨x, hx, hm⟩ := (owners_find l i).1 (hi.resolve_left (by simp))
      exact .inr (.inl ⟨rfl, rfl, x, hx, hm⟩)
  | other =>
    rw [hp] at he
    dsimp only at he
    rcases List.mem_append.mp he with he | he
    · obtain ⟨x, -, rfl⟩ := List.mem_map.mp he
      exact .inl ⟨rfl, rfl⟩
    · obtain ⟨i, hi, rfl⟩ := List.mem_map.mp he
      exact .inr (.inr ⟨rfl, by simp, rfl⟩)

theorem owned_keys (tot spec : Fam) (hne : tot ≠ spec) (d : Name) (l : List (Name × Name))
    (h1 : DistinctUpToCase (items d (l.map Prod.fst)))
    (h2 : DistinctUpToCase (OSet.insAll [] (l.map Prod.snd))) :
    ((owned tot spec d l).map Entry.key).Nodup := by
  have join : ∀ (g g' : Name → Entry) (a b : List Name),
      (∀ i, (g i).fam = tot ∧ (g i).item = i) → (∀ i, (g' i).fam = spec ∧ (g' i).item = i) →
      DistinctUpToCase a → DistinctUpToCase b →
      ((a.map g ++ b.map g').map Entry.key).Nodup := by
    intro g g' a b hg hg' ha hb
    rw [List.map_append, List.nodup_append]
    refine ⟨keys_family g tot a ha hg, keys_family g' spec b hb hg', ?_⟩
    intro x hx y hy hxy
    subst hxy
    rw [List.map_map, List.mem_map] at hx hy
    obtain ⟨i, -, hi⟩ := hx
    obtain ⟨j, -, hj⟩ := hy
    have : tot = spec := by
      have e1 := congrArg Prod.fst hi
      have e2 := congrArg Prod.fst hj
      simp only [Function.comp, Entry.key, (hg i).1, (hg' j).1] at e1 e2
      rw [e1, e2]
    exact hne this
  unfold owned
  unfold items at h1
  cases hp : processDef d with
  | off => exact List.Pairwise.nil
  | on =>
    rw [hp] at h1
    exact join _ _ _ _ (fun i => ⟨rfl, rfl⟩) (fun i => ⟨rfl, rfl⟩) h2 h1
  | other =>
    rw [hp] at h1
    exact join _ _ _ _ (fun i => ⟨rfl, rfl⟩) (fun i => ⟨rfl, rfl⟩) h2 h1

/-- What an entry of a section looks like. -/
theorem section_shape (L : Lists) (d : Name) (v : OutVar) (e : Entry)
    (he : e ∈ sectionOf L d v) :
    e.fam.home = v ∧ (e.fam.fixed = true → e.item = []) ∧
    (e.owner = none ↔ ¬ (processDef d = .on ∧ e.fam.around.isSome)) ∧
    (∀ x, e.owner = some x → (e.fam = .exchSpec ∧ (e.item, x) ∈ L.exchange) ∨
      (e.fam = .surfSpec ∧ (e.item, x) ∈ L.surface) ∨ (e.fam = .ss ∧ (e.item, x) ∈ L.ss)) := by
  cases v with
  | AddOutputVars => simp [sectionOf] at he
  | SolutionProperties =>
    simp only [sectionOf] at he
    split at he
    · simp only [List.mem_cons, List.not_mem_nil, or_false] at he
      rcases he with rfl | rfl | rfl | rfl | rfl | rfl | rfl | rfl <;>
        exact ⟨rfl, fun _ => rfl, by simp [Fam.around], fun x hx => (nomatch hx)⟩
    · simp at he
  | SolutionTotalMolalities =>
    obtain ⟨i, -, rfl⟩ := List.mem_map.mp he
    exact ⟨rfl, fun h => (nomatch h), by simp [Fam.around], fun x hx => (nomatch hx)⟩
  | SolutionMolalities =>
    obtain ⟨i, -, rfl⟩ := List.mem_map.mp he
    exact ⟨rfl, fun h => (nomatch h), by simp [Fam.around], fun x hx => (nomatch hx)⟩
  | SolutionActivities =>
    obtain ⟨i, -, rfl⟩ := List.mem_map.mp he
    exact ⟨rfl, fun h => (nomatch h), by simp [Fam.around], fun x hx => (nomatch hx)⟩
  | CalculateValues =>
    obtain ⟨i, -, rfl⟩ := List.mem_map.mp he
    exact ⟨rfl, fun h => (nomatch h), by simp [Fam.around], fun x hx => (nomatch hx)⟩
  | SaturationIndices =>
    obtain ⟨i, -, rfl⟩ := List.mem_map.mp he
    exact ⟨rfl, fun h => (nomatch h), by simp [Fam.around], fun x hx => (nomatch hx)⟩
  | EquilibriumPhases =>
    obtain ⟨i, -, he⟩ := List.mem_flatMap.mp he
    simp only [List.mem_cons, List.not_mem_nil, or_false] at he
    rcases he with rfl | rfl <;>
      exact ⟨rfl, fun h => (nomatch h), by simp [Fam.around], fun x hx => (nomatch hx)⟩
  | KineticReactants =>
    obtain ⟨i, -, he⟩ := List.mem_flatMap.mp he
    simp only [List.mem_cons, List.not_mem_nil, or_false] at he
    rcases he with rfl | rfl <;>
      exact ⟨rfl, fun h => (nomatch h), by simp [Fam.around], fun x hx => (nomatch hx)⟩
  | Gases =>
    rcases List.mem_append.mp he with he | he
    · split at he
      · simp only [List.mem_cons, List.not_mem_nil, or_false] at he
        subst he
        exact ⟨rfl, fun _ => rfl, by simp [Fam.around], fun x hx => (nomatch hx)⟩
      · simp at he
    · obtain ⟨i, -, he⟩ := List.mem_flatMap.mp he
      simp only [List.mem_cons, List.not_mem_nil, or_false] at he
      rcases he with rfl | rfl | rfl <;>
        exact ⟨rfl, fun h => (nomatch h), by simp [Fam.around], fun x hx => (nomatch hx)⟩
  | ExchangeMolalities =>
    rcases owned_shape _ _ _ _ _ he with ⟨h1, h2⟩ | ⟨h1, h2, x, h3, h4⟩ | ⟨h1, h2, h3⟩
    · rw [h1, h2]; exact ⟨rfl, fun h => (nomatch h), by simp [Fam.around], fun x hx => (nomatch hx)⟩
    · rw [h1, h3]
      refine ⟨rfl, fun h => (nomatch h), by simp [Fam.around, h2], fun y hy => ?_⟩
      cases hy
      exact .inl ⟨rfl, h4⟩
    · rw [h1, h3]; exact ⟨rfl, fun h => (nomatch h), by simp [h2], fun x hx => (nomatch hx)⟩
  | SurfaceMolalities =>
    rcases owned_shape _ _ _ _ _ he with ⟨h1, h2⟩ | ⟨h1, h2, x, h3, h4⟩ | ⟨h1, h2, h3⟩
    · rw [h1, h2]; exact ⟨rfl, fun h => (nomatch h), by simp [Fam.around], fun x hx => (nomatch hx)⟩
    · rw [h1, h3]
      refine ⟨rfl, fun h => (nomatch h), by simp [Fam.around, h2], fun y hy => ?_⟩
      cases hy
      exact .inr (.inl ⟨rfl, h4⟩)
    · rw [h1, h3]; exact ⟨rfl, fun h => (nomatch h), by simp [h2], fun x hx => (nomatch hx)⟩
  | SolidSolutions =>
    simp only [sectionOf] at he
    cases hp : processDef d with
    | off => rw [hp] at he; simp at he
    | on =>
      rw [hp] at he
      obtain ⟨i, hi, rfl⟩ := List.mem_map.mp he
      rw [OSet.mem_insAll] at hi
      obtain ⟨x, hx, hm⟩ := (owners_find L.ss i).1 (hi.resolve_left (by simp))
      refine ⟨rfl, fun h => (nomatch h), by simp [Fam.around, hx], fun y hy => ?_⟩
      dsimp only at hy
      rw [hx] at hy
      cases hy
      exact .inr (.inr ⟨rfl, hm⟩)
    | other =>
      rw [hp] at he
      obtain ⟨i, hi, rfl⟩ := List.mem_map.mp he
      exact ⟨rfl, fun h => (nomatch h), by simp, fun x hx => (nomatch hx)⟩

theorem section_keys (L : Lists) (defs : OutVar → Name) (h : Plain L defs) (v : OutVar) :
    ((sectionOf L (defs v) v).map Entry.key).Nodup := by
  cases v with
  | AddOutputVars => exact List.Pairwise.nil
  | SolutionProperties =>
    simp only [sectionOf]
    split
    · decide
    · exact List.Pairwise.nil
  | SolutionTotalMolalities => exact keys_family _ .totMol _ h.elements (fun i => ⟨rfl, rfl⟩)
  | SolutionMolalities => exact keys_family _ .specM _ h.specM (fun i => ⟨rfl, rfl⟩)
  | SolutionActivities => exact keys_family _ .specA _ h.specA (fun i => ⟨rfl, rfl⟩)
  | CalculateValues => exact keys_family _ .calc _ h.calcs (fun i => ⟨rfl, rfl⟩)
  | SaturationIndices => exact keys_family _ .satIdx _ h.si (fun i => ⟨rfl, rfl⟩)
  | EquilibriumPhases => exact keys_families [.equi, .equiDelta] (by decide) _ h.equi
  | KineticReactants => exact keys_families [.kin, .kinDelta] (by decide) _ h.kin
  | Gases =>
    have hk := keys_families [.gasMol, .gasP, .gasPhi] (by decide) _ h.gases
    simp only [sectionOf]
    rw [List.map_append, List.nodup_append]
    refine ⟨by split <;> simp, hk, ?_⟩
    intro a ha b hb hab
    subst hab
    split at ha
    · simp only [List.map_cons, List.map_nil, List.mem_cons, List.not_mem_nil, or_false] at ha
      subst ha
      rw [List.mem_map] at hb
      obtain ⟨e, he, hk⟩ := hb
      obtain ⟨i, -, he⟩ := List.mem_flatMap.mp he
      have hf := congrArg Prod.fst hk
      simp only [List.mem_cons, List.not_mem_nil, or_false] at he
      rcases he with rfl | rfl | rfl <;> simp [Entry.key] at hf
    · simp at ha
  | ExchangeMolalities => exact owned_keys _ _ (by decide) _ _ h.exch h.exchTot
  | SurfaceMolalities => exact owned_keys _ _ (by decide) _ _ h.surf h.surfTot
  | SolidSolutions =>
    have h1 := h.ss
    unfold items at h1
    simp only [sectionOf]
    cases hp : processDef (defs .SolidSolutions) with
    | off => exact List.Pairwise.nil
    | on => rw [hp] at h1; exact keys_family _ .ss _ h1 (fun i => ⟨rfl, rfl⟩)
    | other => rw [hp] at h1; exact keys_family _ .ss _ h1 (fun i => ⟨rfl, rfl⟩)

theorem mem_entries (L : Lists) (defs : OutVar → Name) (e : Entry) (he : e ∈ entries L defs) :
    e ∈ sectionOf L (defs e.fam.home) e.fam.home := by
  obtain ⟨v, -, he⟩ := List.mem_flatMap.mp he
  have := (section_shape _ _ _ _ he).1
  rw [this]; exact he

theorem entries_good (L : Lists) (defs : OutVar → Name) (h : Plain L defs) (e : Entry)
    (he : e ∈ entries L defs) : Good e := by
  obtain ⟨-, h2, -, h4⟩ := section_shape _ _ _ _ (mem_entries L defs e he)
  refine ⟨h2, fun x hx => ?_⟩
  rcases h4 x hx with ⟨hf, hm⟩ | ⟨hf, hm⟩ | ⟨hf, hm⟩ <;> rw [hf]
  · have := h.exchWord _ hm
    exact ⟨_, _, rfl, fun _ => this.1, by
      rw [show ("_species_log_molality_".toList).tail = "species_log_molality_".toList by decide]
      exact this.2⟩
  · have := h.surfWord _ hm
    exact ⟨_, _, rfl, fun _ => this.1, by
      rw [show ("_species_log_molality_".toList).tail = "species_log_molality_".toList by decide]
      exact this.2⟩
  · have := h.ssWord _ hm
    exact ⟨_, _, rfl, fun hne => (hne rfl).elim, by
      rw [show ("_moles_".toList).tail = "moles_".toList by decide]
      exact this⟩

/-- **C44.** Under these conditions the generated names are distinct up to case. -/
theorem names_distinct (L : Lists) (defs : OutVar → Name) (h : Plain L defs) :
    CaseDistinct (entries L defs) := by
  have hk : ((entries L defs).map Entry.key).Nodup := by
    unfold entries
    rw [List.map_flatMap, List.nodup_flatMap]
    refine ⟨fun v _ => section_keys L defs h v, ?_⟩
    have hn : OutVar.all.Nodup := by decide
    refine hn.imp ?_
    intro v v' hv x hx hx'
    obtain ⟨e, he, rfl⟩ := List.mem_map.mp hx
    obtain ⟨e', he', hkk⟩ := List.mem_map.mp hx'
    have h1 := (section_shape _ _ _ _ he).1
    have h2 := (section_shape _ _ _ _ he').1
    have : e'.fam = e.fam := congrArg Prod.fst hkk
    rw [this, h1] at h2
    exact hv h2
  unfold CaseDistinct
  have hp : (entries L defs).Pairwise (fun a b => a.key ≠ b.key) := List.pairwise_map.mp hk
  apply List.pairwise_map.mpr
  refine hp.imp_of_mem ?_
  intro e e' he he' hne heq
  obtain ⟨h1, h2⟩ := name_inj e e' (entries_good L defs h e he) (entries_good L defs h e' he')
    (fun hfam => by
      have a := (section_shape _ _ _ _ (mem_entries L defs e he)).2.2.1
      have b := (section_shape _ _ _ _ (mem_entries L defs e' he')).2.2.1
      rw [hfam] at a
      rw [a, b]) heq
  exact hne (Prod.ext h1 h2)

end Verif.AutoOutput
