import Verif.Lemmas.CubeGrid
/-
C81: tiles of the cubed sphere share their boundary points.
-/
namespace Verif.CubeGrid

open Verif.Spec.Cube

/-- The assignments which make edges consistent stay within the six tiles: no index is outside the arrays of
`6*nip*nip` corners. -/
theorem C81_in_bounds (ni : Nat) (c : Copy) (hc : c ∈ edgeCopies ni) :
    c.target < 6 * (ni + 1) * (ni + 1) ∧ c.source < 6 * (ni + 1) * (ni + 1) := by
  rw [edgeCopies_eq, toCopies, List.mem_map] at hc
  obtain ⟨d, hd, rfl⟩ := hc
  obtain ⟨⟨h1, h2⟩, h3, h4⟩ := pcAll_ok ni d hd
  exact ⟨idx_lt h2 h1.1 h1.2, idx_lt h4 h3.1 h3.2⟩

/-- After the copies, the array has the same corner at all points of the six tiles which are the same place of the cube,
whatever was in the array before. -/
theorem C81_corners_agree {P : Type} (ni : Nat) (hni : 0 < ni) (a : Nat → P) (t j i t' j' i' : Nat)
    (ht : t < 6) (hj : j ≤ ni) (hi : i ≤ ni) (ht' : t' < 6) (hj' : j' ≤ ni) (hi' : i' ≤ ni)
    (h : place ni t j i = place ni t' j' i') :
    consistent ni a (t * (ni + 1) * (ni + 1) + j * (ni + 1) + i)
      = consistent ni a (t' * (ni + 1) * (ni + 1) + j' * (ni + 1) + i') := by
  rw [show t * (ni + 1) * (ni + 1) + j * (ni + 1) + i = idx (ni + 1) t j i from rfl,
    show t' * (ni + 1) * (ni + 1) + j' * (ni + 1) + i' = idx (ni + 1) t' j' i' from rfl,
    consistent_eq ni hni a t j i ht hj hi, consistent_eq ni hni a t' j' i' ht' hj' hi', h]

/-- What the copies put into the array at a point was there before at a point which is the same place of the cube, on the
lowest tile which has this place. So a tile is changed only on its boundary, and the first tile not at all. -/
theorem C81_corner_kept {P : Type} (ni : Nat) (hni : 0 < ni) (a : Nat → P) (t j i : Nat)
    (ht : t < 6) (hj : j ≤ ni) (hi : i ≤ ni) :
    ∃ t' j' i', t' ≤ t ∧ j' ≤ ni ∧ i' ≤ ni ∧ place ni t' j' i' = place ni t j i
      ∧ (∀ s k l, s < 6 → k ≤ ni → l ≤ ni → place ni s k l = place ni t j i → t' ≤ s)
      ∧ consistent ni a (t * (ni + 1) * (ni + 1) + j * (ni + 1) + i)
        = a (t' * (ni + 1) * (ni + 1) + j' * (ni + 1) + i') := by
  refine ⟨(low ni (place ni t j i)).t, (low ni (place ni t j i)).j, (low ni (place ni t j i)).i, ?_, ?_, ?_, ?_, ?_,
    consistent_eq ni hni a t j i ht hj hi⟩
  · interval_cases t <;> simp only [place, low] <;> split_ifs <;> (try simp only []) <;> omega
  · interval_cases t <;> simp only [place, low] <;> split_ifs <;> (try simp only []) <;> omega
  · interval_cases t <;> simp only [place, low] <;> split_ifs <;> (try simp only []) <;> omega
  · interval_cases t <;> simp only [place, low] <;> split_ifs <;>
      simp only [place, Prod.mk.injEq, true_and, and_true] <;> omega
  · intro s k l hs hk hl h
    rw [← h]
    interval_cases s <;> simp only [place, low] <;> split_ifs <;> (try simp only []) <;> omega

/-- A tile of size 1: the first point of tile 2, the second of tile 1 and one of tile 6 are the same corner of the cube, and
the value of tile 1 is taken. -/
example : consistent 1 (fun k => k) (1 * 2 * 2 + 0 * 2 + 0) = 1 ∧ consistent 1 (fun k => k) (5 * 2 * 2 + 1 * 2 + 1) = 1
    ∧ place 1 1 0 0 = place 1 5 1 1 := by decide

/-- Points of the supergrid, which is what make_hgrid writes, have the same longitude and latitude on all tiles where they
are the same place of the cube: for every size, with and without stretching, whatever the corners of the six tiles were
before the edges were made consistent. -/
theorem C81_supergrid_agrees (p : Par) (hni : 0 < p.ni) (a : Nat → LonLat) (t j i t' j' i' : Nat)
    (ht : t < 6) (hj : j ≤ 2 * p.ni) (hi : i ≤ 2 * p.ni) (ht' : t' < 6) (hj' : j' ≤ 2 * p.ni) (hi' : i' ≤ 2 * p.ni)
    (h : place (2 * p.ni) t j i = place (2 * p.ni) t' j' i') : grid p a t j i = grid p a t' j' i' := by
  unfold grid
  exact super_same _ _ (midEdge_comm p.eps10) p.ni _
    (fun q => transform p (a ((low p.ni q).ix (p.ni + 1))))
    (fun t j i ht hj hi => by rw [consistent_eq p.ni hni a t j i ht hj hi]) t j i t' j' i' ht hj hi ht' hj' hi' h

/-- The middle of the east edge of tile 1 and of the west edge of tile 2 in a supergrid of size 2; it is the same place of
the cube. -/
example (p : Par) (h : p.ni = 1) (a : Nat → LonLat) : grid p a 0 1 2 = grid p a 1 1 0 :=
  C81_supergrid_agrees p (by omega) a 0 1 2 1 1 0 (by omega) (by omega) (by omega) (by omega) (by omega) (by omega)
    (by rw [h]; rfl)

end Verif.CubeGrid
