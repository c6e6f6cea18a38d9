import Verif.Scatter.Lemmas

/-!
# C60: scatter and gather

The full statement, that gathering the scattered parts gives the original array, holds on the
first grid cell of every reaction cell; `gather_scatter_partial` says what the other grid cells
get and `gather_scatter_violated` gives an array that is not returned.
-/

namespace Verif.Scatter

open Verif.Mapping Verif.Grid Verif.Getters Verif.Ranges Verif.Conc

/-- C60 (partial). Scattering an array over the processes and gathering the parts puts, for every
partition, in each grid cell of a reaction cell the original value of the first grid cell of that
reaction cell; inactive grid cells keep what the destination held (zero where it was shorter).
Missing: the further grid cells of a reaction cell do not get their own value back. -/
theorem gather_scatter_partial {g : List Int} {s : MapState} (hcon : Consistent g s)
    (hg : g.length = s.nxyz) (source dest : List ℚ) (hs : source.length = s.nxyz) :
    ∃ pieces d, scatter s source = .ok pieces ∧ gather s pieces dest = .ok d ∧
      d.length = s.nxyz ∧
      ∀ (i : Nat) (x : Int), g[i]? = some x →
        (x < 0 → d[i]? = if i < dest.length then dest[i]? else some 0) ∧
        (∀ p, Primary g x p → 0 ≤ x → d[i]? = source[p]?) := by
  obtain ⟨c, h1, h2, h3⟩ := compress_eq hcon hg source (by omega)
  obtain ⟨ps, e1, e2, e3⟩ := slice_all hcon.ranges.2 (by omega) c (by omega)
  have hflat : ps.flatten = c := by simpa using e3
  obtain ⟨d, f1, f2, f3⟩ := expand_spec hcon hg c dest h2
  refine ⟨ps, d, ?_, ?_, f2, fun i x hx => ⟨fun hn => ?_, fun p hp h0 => ?_⟩⟩
  · rw [scatter, h1, Out.ok_bind, e1]
  · rw [gather, gatherBuf_eq hcon ps e2, hflat, Out.ok_bind, f1]
  · have hi : i < s.nxyz := hg ▸ (List.getElem?_eq_some_iff.mp hx).1
    rw [(f3 i x hx).1 hn, getElem?_resize _ _ _ _ hi]
  · have hlt := hcon.count_max.1 x (List.mem_of_getElem? hx)
    have hxe : ((x.toNat : Nat) : Int) = x := by omega
    rw [(f3 i x hx).2 h0]
    exact h3 x.toNat p (by rw [hxe]; exact hp) (by omega)

/-- C60 for arrays that are the same on all grid cells of a reaction cell, gathered into the
original array: exactly that array comes back. -/
theorem gather_scatter_symmetric {g : List Int} {s : MapState} (hcon : Consistent g s)
    (hg : g.length = s.nxyz) (source : List ℚ) (hs : source.length = s.nxyz)
    (hsym : ∀ (i j : Nat) (x : Int), 0 ≤ x → g[i]? = some x → g[j]? = some x →
      source[i]? = source[j]?) :
    ∃ pieces, scatter s source = .ok pieces ∧ gather s pieces source = .ok source := by
  obtain ⟨ps, d, h1, h2, h3, h4⟩ := gather_scatter_partial hcon hg source source hs
  refine ⟨ps, h1, ?_⟩
  rw [h2]
  congr 1
  refine List.ext_getElem? fun i => ?_
  by_cases hi : i < s.nxyz
  · have hx : g[i]? = some g[i] := List.getElem?_eq_getElem (by omega)
    obtain ⟨a1, a2⟩ := h4 i _ hx
    by_cases hn : g[i] < 0
    · rw [a1 hn, if_pos (by omega)]
    · obtain ⟨n, _, ho⟩ := hcon.ranges.2.owner (c := g[i]) (by omega)
        (hcon.count_max.1 _ (List.mem_of_getElem? hx))
      obtain ⟨cells, p, _, _, hp, _⟩ := primary_of_ready hcon hg ho
      rw [a2 p hp (by omega)]
      exact hsym p i _ (by omega) hp.1 hx
  · rw [List.getElem?_eq_none (by omega), List.getElem?_eq_none (by omega)]

/-- C105. The other way round nothing is lost: values held by the processes, gathered into any
destination and scattered again, are the same values, for every partition. -/
theorem scatter_gather {g : List Int} {s : MapState} (hcon : Consistent g s)
    (hg : g.length = s.nxyz) (pieces : List (List ℚ)) (hp : Sized s.ranges pieces)
    (dest : List ℚ) :
    ∃ d, gather s pieces dest = .ok d ∧ scatter s d = .ok pieces := by
  have hlen : (pieces.flatten.length : Int) = s.count := by
    have gen : ∀ (a b : Int) (rs : List (Int × Int)) (ps : List (List ℚ)), Contig a b rs →
        Sized rs ps → (ps.flatten.length : Int) = b - a := by
      intro a b rs ps hc hz
      induction rs generalizing a ps with
      | nil => cases hz; simp only [Contig] at hc; simp; omega
      | cons r rs ih =>
        cases hz with
        | @cons _ p _ ps z1 z2 =>
          obtain ⟨c1, c2, c3⟩ := hc
          have := ih _ ps c3 z2
          simp only [size] at z1
          simp only [List.flatten_cons, List.length_append]
          omega
    have := gen 0 s.count _ pieces hcon.ranges.2 hp
    omega
  obtain ⟨d, f1, f2, f3⟩ := expand_spec hcon hg pieces.flatten dest (by omega)
  refine ⟨d, by rw [gather, gatherBuf_eq hcon pieces hp, Out.ok_bind, f1], ?_⟩
  obtain ⟨c, h1, h2, h3⟩ := compress_eq hcon hg d (by omega)
  have hc : c = pieces.flatten := by
    refine List.ext_getElem? fun j => ?_
    by_cases hj : j < s.count
    · obtain ⟨n, _, ho⟩ := hcon.ranges.2.owner (c := (j : Int)) (by omega) (by omega)
      obtain ⟨cells, p, _, _, hp', _⟩ := primary_of_ready hcon hg ho
      rw [h3 j p hp' hj, (f3 p j hp'.1).2 (by omega)]
      simp
    · rw [List.getElem?_eq_none (by omega), List.getElem?_eq_none (by omega)]
  rw [scatter, h1, Out.ok_bind, hc]
  exact slice_pieces hcon.ranges.2 (by omega) pieces hp [] rfl

end Verif.Scatter
