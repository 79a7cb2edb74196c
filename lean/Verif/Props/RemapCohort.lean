import Verif.Lemmas.RemapCohort
/-
C93: the cohorts of the vegetation file written by remap_land.
-/
namespace Verif

open Verif.RemapLand

/-- C93: the sort function leaves the same pairs of elements in increasing order, for all random numbers. -/
theorem C93_sort (rnd : Int → Int → Nat) (parts : List (List Nat)) :
    (gatherSort rnd parts).Perm parts.flatten.zipIdx ∧ ((gatherSort rnd parts).map (·.1)).Pairwise (· ≤ ·) := by
  obtain ⟨h1, h2⟩ := gatherSort_spec rnd parts
  exact ⟨h1, List.pairwise_map.2 h2⟩

example : gatherSort (fun _ _ => 0) [[5, 9], [2, 7, 8]] = [(2, 2), (5, 0), (7, 3), (8, 4), (9, 1)] := by decide +kernel

/-- C93: the search in an increasing array finds the position of a value, if there is one. -/
theorem C93_search (k : Nat) (v : List Nat) (hs : v.Pairwise (· < ·)) (p : Nat) :
    binarySearch k v = some p ↔ v[p]? = some k := binarySearch_iff k v hs p

example : binarySearch 7 [1, 4, 7, 9] = some 2 ∧ binarySearch 5 [1, 4, 7, 9] = none := by decide

/-- C93: let the values of `cohort_index` of each source face be increasing. `cohort_index` of a new face is strictly
increasing. It has the index of cohort `ic` in tile `it` of point `p` if and only if the tile exists and the source face of the
point has this cohort in the tile it comes from; and a variable has there the value of that source cohort. The size of the
arrays is right and the checks of the program do not fail. All this holds for every distribution of the points to processes
and all random numbers in the sort. -/
theorem C93_cohorts {β : Type} [Inhabited β] (rnd : Int → Int → Nat) (g : CohoArg) (m : CohoMap) (sizes : List Nat)
    (hsizes : sizes.sum = g.nsD) (hs : ∀ f, (g.cohoS f).Pairwise (· < ·)) (val : Nat → Nat → β) :
    ∃ r, writeCoho rnd g ((layout 0 sizes).map fun om => (m.part g.ntD om.1, om.1, om.2)) val = some r
      ∧ (r.map (·.1)).Pairwise (· < ·)
      ∧ ∀ x v, (x, v) ∈ r ↔ ∃ ic < g.ncD, ∃ it < g.ntD, ∃ p < g.nsD, ∃ itS pos,
          x = g.nsD * g.ntD * ic + g.nsD * it + p
          ∧ m.otn (g.ntD * p + it) = some itS
          ∧ (g.cohoS (m.faceMap p))[pos]? = some (g.nsS * g.ntS * ic + g.nsS * itS + m.idxMap p)
          ∧ v = val (m.faceMap p) pos := by
  obtain ⟨r, h1, h2, h3⟩ := writeCoho_ok rnd g m sizes (by omega) val
  refine ⟨r, h1, List.pairwise_map.2 h3, fun x v => ?_⟩
  rw [h2.mem_iff, List.mem_map]
  have body : ∀ ic it p c, cohoBody g m 0 ic it p = some c ↔ ∃ itS pos, m.otn (g.ntD * p + it) = some itS
      ∧ (g.cohoS (m.faceMap p))[pos]? = some (g.nsS * g.ntS * ic + g.nsS * itS + m.idxMap p)
      ∧ c = ⟨g.nsD * g.ntD * ic + g.nsD * it + p, m.faceMap p, pos⟩ := by
    intro ic it p c
    unfold cohoBody
    constructor
    · intro h
      split at h
      · cases h
      · rename_i itS hotn
        dsimp only at h
        split at h
        · cases h
        · rename_i pos hpos
          injection h with h
          rw [Nat.zero_add] at h
          exact ⟨itS, pos, hotn, (binarySearch_iff _ _ (hs _) _).1 hpos, h.symm⟩
    · rintro ⟨itS, pos, a, b, rfl⟩
      rw [a]
      dsimp only
      rw [(binarySearch_iff _ _ (hs _) _).2 b, Nat.zero_add]
  constructor
  · rintro ⟨c, hc, hcx⟩
    injection hcx with e1 e2
    subst e1 e2
    rw [List.mem_flatMap] at hc
    obtain ⟨om, hom, hc⟩ := hc
    obtain ⟨ic, hic, it, hit, i, hi, hb⟩ := (mem_cohoLoop _ _ _ _ _).1 hc
    rw [cohoBody_part] at hb
    obtain ⟨itS, pos, a, b, rfl⟩ := (body _ _ _ _).1 hb
    have := mem_layout sizes 0 om hom
    exact ⟨ic, hic, it, hit, om.1 + i, by omega, itS, pos, rfl, a, b, rfl⟩
  · rintro ⟨ic, hic, it, hit, p, hp, itS, pos, rfl, a, b, rfl⟩
    obtain ⟨om, hom, hp1, hp2⟩ := layout_cover sizes 0 p (by omega) (by omega)
    refine ⟨⟨g.nsD * g.ntD * ic + g.nsD * it + p, m.faceMap p, pos⟩, ?_, rfl⟩
    rw [List.mem_flatMap]
    refine ⟨om, hom, (mem_cohoLoop _ _ _ _ _).2 ⟨ic, hic, it, hit, p - om.1, by omega, ?_⟩⟩
    rw [cohoBody_part, show om.1 + (p - om.1) = p by omega]
    exact (body _ _ _ _).2 ⟨itS, pos, a, b, rfl⟩

/-- Three points on two processes, two cohorts; all points come from source point 1 of face 0, which has cohorts 0 and 1. -/
example : writeCoho (fun _ _ => 7) ⟨3, 1, 2, 2, 1, fun _ => [1, 2, 3]⟩
    ((layout 0 [2, 1]).map fun om => ((⟨fun _ => some 0, fun _ => 1, fun _ => 0⟩ : CohoMap).part 1 om.1, om.1, om.2))
    (fun _ pos => pos + 100)
    = some [(0, 100), (1, 100), (2, 100), (3, 102), (4, 102), (5, 102)] := by decide +kernel

/-- C93, the condition on the source is needed: with values that are not increasing the search may miss a cohort that is
there; the program does not check the order. -/
theorem C93_order_needed : ∃ (k : Nat) (v : List Nat), k ∈ v ∧ v.Nodup ∧ binarySearch k v = none :=
  ⟨1, [5, 3, 1], by decide, by decide, by decide⟩

end Verif
