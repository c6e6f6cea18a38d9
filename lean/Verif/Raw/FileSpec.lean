import Verif.Raw.FileLemmas
import Verif.Raw.ExchangeProps
import Verif.Raw.SolutionProps
import Verif.Raw.GasProps
import Verif.Raw.BlocksProps
import Verif.Raw.KineticsProps
import Verif.Raw.PPProps
import Verif.Raw.SSProps
import Verif.Raw.SurfaceProps

/-!
# A whole dump file: specification and the parts of the proof
-/

namespace Verif.Raw

open Verif.OMap Verif.NameDouble

/-- The entity with number `n` is asked for: the kind is switched on, the number is in the list or
the list is empty, and the number is not one of the internal negative numbers. -/
def Picked (p : Pick) (n : Int) : Prop := p.on = true ∧ (p.nums = [] ∨ n ∈ p.nums) ∧ 0 ≤ n

/-- A map holds its entities under their numbers, and those asked for meet a condition. -/
def MapOk {β : Type} (head : β → Head) (P : β → Prop) (p : Pick) (m : SMap Int β) : Prop :=
  Sorted m ∧ ∀ e ∈ m, e.1 = (head e.2).nUser ∧ (Picked p e.1 → P e.2)

/-- What is expected of one kind of entity: those asked for are as their own restart makes them,
the others are what they were in the object that reads the file. -/
def Restarts {β : Type} (dump : β → List Line) (read : List Line → β × Nat × List Line)
    (p : Pick) (m m0 m1 : SMap Int β) : Prop :=
  ∀ n, (∀ x, Picked p n → find m n = some x →
      ∃ y, find m1 n = some y ∧ read (dump x) = (y, 0, [])) ∧
    (¬ Picked p n ∨ find m n = none → find m1 n = find m0 n)

/-- The conditions under which all blocks of the file can be read; they are those of C122 to
C129. -/
structure Maps.Loadable (rnd : ℚ → ℚ) (p : Picks) (m : Maps) : Prop where
  solutions : MapOk Solution.head (fun x => x.Loadable ∧ x.isotopes = []) p.solutions m.solutions
  pps : MapOk PPAssemblage.head PPAssemblage.Loadable p.pps m.pps
  exchanges : MapOk Exchange.head Exchange.Loadable p.exchanges m.exchanges
  surfaces : MapOk Surface.head (Surface.Loadable rnd) p.surfaces m.surfaces
  sss : MapOk SSAssemblage.head SSAssemblage.Loadable p.sss m.sss
  gases : MapOk GasPhase.head GasPhase.Loadable p.gases m.gases
  kinetics : MapOk Kinetics.head Kinetics.Loadable p.kinetics m.kinetics
  mixes : MapOk Mix.head (fun x => Sorted x.comps) p.mixes m.mixes
  reactions : MapOk Reaction.head Reaction.Loadable p.reactions m.reactions
  temperatures : MapOk StepList.head (fun _ => True) p.temperatures m.temperatures
  pressures : MapOk StepList.head (fun _ => True) p.pressures m.pressures

/-- All maps are ordered, as `std::map` is. -/
structure Maps.Sorted (m : Maps) : Prop where
  solutions : OMap.Sorted m.solutions
  pps : OMap.Sorted m.pps
  exchanges : OMap.Sorted m.exchanges
  surfaces : OMap.Sorted m.surfaces
  sss : OMap.Sorted m.sss
  gases : OMap.Sorted m.gases
  kinetics : OMap.Sorted m.kinetics
  mixes : OMap.Sorted m.mixes
  reactions : OMap.Sorted m.reactions
  temperatures : OMap.Sorted m.temperatures
  pressures : OMap.Sorted m.pressures

/-- The lines that follow the dumped text: none, or the end of the simulation. -/
def Rest (ls : List Line) : Prop := ls = [] ∨ ∃ l ms, ls = (.word "END".toList :: l) :: ms

/-- A map after the chosen entities were stored. -/
def loaded {β : Type} (head : β → Head) (res : β → β) (p : Pick) (m m0 : SMap Int β) : SMap Int β :=
  (chosen head p m).foldl (fun t x => OMap.insert t (head x).nUser (res x)) m0

theorem restarts_loaded {β : Type} {head : β → Head} {P : β → Prop} {res : β → β} {p : Pick}
    {m m0 : SMap Int β} {dump : β → List Line} {read : List Line → β × Nat × List Line}
    (hm : MapOk head P p m) (h0 : Sorted m0)
    (hr : ∀ x, P x → ∀ ls, BlockEnd ls → read (dump x ++ ls) = (res x, 0, ls)) :
    Restarts dump read p m m0 (loaded head res p m m0) := by
  have hc := mem_chosen head p m hm.1 (fun e he => (hm.2 e he).1)
  intro n
  constructor
  · intro x hp hx
    obtain ⟨h1, h2⟩ := hm.2 (n, x) (mem_of_find hx)
    dsimp only at h1
    subst h1
    refine ⟨res x, ?_, ?_⟩
    · refine find_foldl_mem (fun x => (head x).nUser) res _ m0 h0 ?_ x
        ((hc x).mpr ⟨hp.1, hp.2.2, hx, hp.2.1⟩)
      intro a ha b hb e
      have e1 := ((hc a).mp ha).2.2.1
      have e2 := ((hc b).mp hb).2.2.1
      rw [e, e2] at e1
      exact (Option.some.inj e1).symm
    · have := hr x (h2 hp) [] (Or.inl rfl)
      rwa [List.append_nil] at this
  · intro h
    refine find_foldl_not (fun x => (head x).nUser) res _ m0 h0 n ?_
    intro x hx e
    obtain ⟨a1, a2, a3, a4⟩ := (hc x).mp hx
    rw [e] at a2 a3 a4
    rcases h with h | h
    · exact h ⟨a1, a4, a2⟩
    · rw [h] at a3; cases a3

theorem chosen_ok {β : Type} {head : β → Head} {P : β → Prop} {p : Pick} {m : SMap Int β}
    (hm : MapOk head P p m) : ∀ x ∈ chosen head p m, P x := by
  intro x hx
  obtain ⟨a1, a2, a3, a4⟩ := (mem_chosen head p m hm.1 (fun e he => (hm.2 e he).1) x).mp hx
  exact (hm.2 _ (mem_of_find a3)).2 ⟨a1, a4, a2⟩

theorem chosen_at {β : Type} {head : β → Head} {P : β → Prop} {p : Pick} {m : SMap Int β}
    (hm : MapOk head P p m) (x : β) (hx : x ∈ chosen head p m) :
    Picked p (head x).nUser ∧ P x ∧ ((head x).nUser, x) ∈ m := by
  obtain ⟨a1, a2, a3, a4⟩ := (mem_chosen head p m hm.1 (fun e he => (hm.2 e he).1) x).mp hx
  exact ⟨⟨a1, a4, a2⟩, chosen_ok hm x hx, mem_of_find a3⟩

theorem readBlocks_rest {ls : List Line} (h : Rest ls) (f : Nat) (hf : ls.length ≤ f)
    (s : FileState) : readBlocks f ls s = some (s, ls) := by
  rcases h with rfl | ⟨l, ms, rfl⟩
  · cases f <;> rfl
  · cases f with
    | zero => simp at hf
    | succ f => rfl

theorem Rest.blockEnd {ls : List Line} (h : Rest ls) : BlockEnd ls := by
  rcases h with rfl | ⟨l, ms, rfl⟩
  · exact Or.inl rfl
  · exact Or.inr ⟨_, _, _, rfl, by decide +kernel⟩

theorem readBlocks_use {ls : List Line} (h : Rest ls) (f : Nat)
    (hf : (useLines ++ ls).length ≤ f) (s : FileState) :
    readBlocks f (useLines ++ ls) s = some (s, ls) := by
  have hu : ∀ (l : Line) (ms : List Line) (s : FileState), BlockEnd ms →
      block (.word "USE".toList :: l) ms s = some (s, ms) := by
    intro l ms s hm
    rw [block, skip_blockEnd hm]
    rfl
  have hl : (useLines ++ ls).length = ls.length + 4 := by simp [useLines]
  rw [hl] at hf
  obtain ⟨g, rfl⟩ : ∃ g, f = g + 4 := ⟨f - 4, by omega⟩
  have hk : isKeyword "USE".toList = true := by decide +kernel
  have b0 := h.blockEnd
  have be : ∀ (l : Line) (ms : List Line), BlockEnd ((.word "USE".toList :: l) :: ms) :=
    fun l ms => Or.inr ⟨_, _, _, rfl, hk⟩
  unfold useLines
  simp only [List.cons_append, List.nil_append]
  rw [readBlocks, hu _ _ _ (be _ _)]
  dsimp only
  rw [readBlocks, hu _ _ _ (be _ _)]
  dsimp only
  rw [readBlocks, hu _ _ _ (be _ _)]
  dsimp only
  rw [readBlocks, hu _ _ _ b0]
  dsimp only
  exact readBlocks_rest h g (by omega) s

theorem useLines_blockEnd (ls : List Line) : BlockEnd (useLines ++ ls) :=
  Or.inr ⟨"USE".toList, _, _, rfl, by decide +kernel⟩

end Verif.Raw
