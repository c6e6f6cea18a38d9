import Verif.Lockstep.ReadingsLemmas

/-!
# Values of cells that the root gathers from the processes
-/

namespace Verif.Lockstep

open Spec

variable {n : Nat} {χ : Type} {E : Engine χ}

/-- The process of rank `p` has the reaction cell `c`. -/
def Spec.Owns (cells : List Nat) (p c : Nat) : Prop :=
  (cells.take p).sum ≤ c ∧ c < (cells.take p).sum + cells.getD p 0

/-- **C188, what is gathered.** After any calls, a reading of the root (density, pressure, saturation,
volume, temperature or viscosity) ends with `IRM_OK` in every execution, and each grid cell of a reaction
cell gets the value that the process that has the cell gives — for the viscosity of the cells of other
processes than the root, the volume of the solution. -/
theorem readings_gathered (hw : Works n E) (hn : 0 < n) (cs : List Call) (s : Nat → St χ)
    (h : Ready n s) (hc : ∀ c ∈ cs, Fine (s 0).sh.nxyz (s 0).sh.ncomp c)
    (hg : ∀ b ∈ (s 0).sh.back, ∀ i ∈ b, i < (s 0).sh.nxyz) (hnd : (s 0).sh.back.flatten.Nodup) (r : Reading) :
    ∃ rs u u', Ends E n cs s rs u ∧ Ends E n (cs ++ [.getReading r]) s (rs ++ [.ok .ok]) u' ∧
      ∀ p < n, ∀ c b i, Owns (u 0).sh.cells p c → (s 0).sh.back[c]? = some b → i ∈ b →
        (u' 0).out[i]? = some (E.reading p (u p).clear
          (if p ≠ 0 ∧ r = .viscosity then .solutionVolume else r) c) := by
  obtain ⟨rs, u, r', h1, ha, h2⟩ := calls_served hw hn cs s h hc (fun _ => .ok .ok) (fun _ _ => alive_ok _)
  obtain ⟨u', h3, h4⟩ := served_read (E := E) h1.ready hn r r' ha
  obtain ⟨w1, e1⟩ := (h2 _ _ _ (SessRun.nil u ha)).start hn
  obtain ⟨w2, e2⟩ := (h2 [.getReading r] _ _ (SessRun.cons (alive_ok _) h3 (SessRun.nil u' (fun _ _ => alive_ok _)))).start hn
  rw [List.append_nil, List.append_nil] at e1
  refine ⟨rs, u, u', ends_of_run hn e1, ends_of_run hn e2, ?_⟩
  intro p hp c b i ho hb hi
  have hl := lay_soft (lay_of_ready h1.ready) hn (fun p _ => Soft.clear (u p))
  have hk : kinds r p = if p ≠ 0 ∧ r = .viscosity then .solutionVolume else r := by
    unfold kinds
    by_cases h0 : p = 0
    · simp [h0]
    · cases r <;> simp [h0, Reading.asked]
  rw [h4, ← hk]
  refine readOut_at (s := fun p => (u p).clear) hl (kinds r) ?_ ?_ ?_ hi hp ho.1 ho.2
  · show ∀ b ∈ (u 0).sh.back, ∀ i ∈ b, i < (u 0).sh.nxyz
    rw [h1.back, h1.nxyz]; exact hg
  · show (u 0).sh.back.flatten.Nodup
    rw [h1.back]; exact hnd
  · show (u 0).sh.back[c]? = _
    rw [h1.back]; exact hb

/-- **C188.** After any calls, a reading of the root ends with `IRM_OK` in every execution, and each grid
cell of a reaction cell gets the value that the process that has the cell gives for this reading.

Full claim: also the viscosity. It does not hold, `viscosity_is_volume`. -/
theorem readings_partial (hw : Works n E) (hn : 0 < n) (cs : List Call) (s : Nat → St χ)
    (h : Ready n s) (hc : ∀ c ∈ cs, Fine (s 0).sh.nxyz (s 0).sh.ncomp c)
    (hg : ∀ b ∈ (s 0).sh.back, ∀ i ∈ b, i < (s 0).sh.nxyz) (hnd : (s 0).sh.back.flatten.Nodup)
    (r : Reading) (hr : r ≠ .viscosity) :
    ∃ rs u u', Ends E n cs s rs u ∧ Ends E n (cs ++ [.getReading r]) s (rs ++ [.ok .ok]) u' ∧
      ∀ p < n, ∀ c b i, Owns (u 0).sh.cells p c → (s 0).sh.back[c]? = some b → i ∈ b →
        (u' 0).out[i]? = some (E.reading p (u p).clear r c) := by
  obtain ⟨rs, u, u', h1, h2, h3⟩ := readings_gathered hw hn cs s h hc hg hnd r
  refine ⟨rs, u, u', h1, h2, fun p hp c b i k1 k2 k3 => ?_⟩
  rw [h3 p hp c b i k1 k2 k3, if_neg (fun k => hr k.2)]

/-- Every reaction cell is in a process, so that all of them are spoken of. -/
theorem owned {m : Nat} {cells : List Nat} (h : Divides n m cells) {c : Nat} (hc : c < m) :
    ∃ p < n, Owns cells p c := by
  obtain ⟨rfl, rfl⟩ := h
  unfold Owns
  induction cells generalizing c with
  | nil => exact absurd hc (by simp)
  | cons a l ih =>
    by_cases ha : c < a
    · exact ⟨0, by simp, by simp, by simpa using ha⟩
    · rw [List.sum_cons] at hc
      obtain ⟨p, h1, h2, h3⟩ := ih (c := c - a) (by omega)
      refine ⟨p + 1, by simpa using h1, ?_, ?_⟩
      · rw [List.take_succ_cons, List.sum_cons]; omega
      · rw [List.take_succ_cons, List.sum_cons, List.getD_cons_succ]; omega

/-- The program of `Demo` meets the hypotheses. -/
example : Works 2 Demo.E ∧ Ready 2 Demo.s0 ∧
    (∀ c ∈ Demo.calls, Fine (Demo.s0 0).sh.nxyz (Demo.s0 0).sh.ncomp c) ∧
    (∀ b ∈ (Demo.s0 0).sh.back, ∀ i ∈ b, i < (Demo.s0 0).sh.nxyz) ∧ (Demo.s0 0).sh.back.flatten.Nodup :=
  ⟨Demo.works, Demo.ready, Demo.fine, by decide, by decide⟩

/-- As `Demo.E`, but the viscosity of every cell is 1 and every other reading 7. -/
def Demo.thin : Engine Nat := { Demo.E with reading := fun _ _ r _ => if r = .viscosity then 1 else 7 }

theorem Demo.thin_works : Works 2 Demo.thin where
  world := Demo.works.world
  unpack := Demo.works.unpack
  delete := Demo.works.delete
  cells := Demo.works.cells
  tasks := Demo.works.tasks

/-- **C188 does not hold for the viscosity.** The viscosity of each of the three cells is 1. `GetViscosity`
returns, in every execution, 1 for the two cells of the root and the volume of the solution, 7, for the
cell of the worker (`/repo/src/PhreeqcRM.cpp:5363`). -/
theorem viscosity_is_volume :
    (∀ p s k, Demo.thin.reading p s .viscosity k = 1) ∧
    ∃ u', Ends Demo.thin 2 [.getReading .viscosity] Demo.s0 [.ok .ok] u' ∧
      (u' 0).out[0]? = some 1 ∧ (u' 0).out[1]? = some 1 ∧ (u' 0).out[2]? = some 7 := by
  refine ⟨fun _ _ _ => rfl, ?_⟩
  obtain ⟨u', h1, h2⟩ := served_read (E := Demo.thin) Demo.ready (by decide) .viscosity (fun _ => .ok .ok)
    (fun _ _ => alive_ok _)
  obtain ⟨w, e⟩ := (SessRun.cons (alive_ok _) h1 (SessRun.nil u' (fun _ _ => alive_ok _))).start (by decide)
  have h3 : readOut Demo.thin 2 (kinds .viscosity) (fun p => (Demo.s0 p).clear) = [1, 1, 7] := by decide +kernel
  rw [h3] at h2
  exact ⟨u', ends_of_run (by decide) e, by rw [h2]; rfl, by rw [h2]; rfl, by rw [h2]; rfl⟩

end Verif.Lockstep
