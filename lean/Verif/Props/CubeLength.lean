import Verif.Lemmas.CubeLength
import Verif.Props.CubeGrid
/-
C82: lengths of cell sides in a cubed sphere grid.
-/
namespace Verif.CubeGrid

open Verif.Spec.Cube

/-- The length written for a side: `dx` for a side along a row, `dy` for a side along a column. -/
noncomputable def lengthOf (p : Par) (radius : ℝ) (stretched : Bool) (a : Nat → LonLat) (s : Side) : ℝ :=
  let nx := 2 * p.ni
  let dx := dx0 (distance radius) nx (grid p a)
  if s.along then dx (s.t * nx * (nx + 1) + s.j * nx + s.i)
  else dyFinal nx dx (dy0 (distance radius) stretched nx (grid p a)) (s.t * nx * (nx + 1) + s.j * (nx + 1) + s.i)

theorem lengthOf_along (p : Par) (radius : ℝ) (st : Bool) (a : Nat → LonLat) (t j i : Nat) (hj : j ≤ 2 * p.ni)
    (hi : i < 2 * p.ni) :
    lengthOf p radius st a ⟨t, j, i, true⟩ = distance radius (grid p a t j i) (grid p a t j (i + 1)) :=
  dx0_ldx (distance radius) (2 * p.ni) (grid p a) t j i hj hi

theorem lengthOf_across (p : Par) (radius : ℝ) (st : Bool) (a : Nat → LonLat) (t j i : Nat) (ht : t < 6)
    (hj : j < 2 * p.ni) (hi : i ≤ 2 * p.ni) :
    lengthOf p radius st a ⟨t, j, i, false⟩
      = srcVal (dx0 (distance radius) (2 * p.ni) (grid p a)) (dy0 (distance radius) st (2 * p.ni) (grid p a))
          (dySource (2 * p.ni) t j i) :=
  dyFinal_eq (2 * p.ni) _ _ t j i ht hj hi

/-- A side of a cell on the boundary of two tiles has one length: what is written for one tile is what is written for the
other, with and without stretching. -/
theorem C82_lengths_agree (p : Par) (hni : 0 < p.ni) (radius : ℝ) (stretched : Bool) (a : Nat → LonLat) (s s' : Side)
    (hs : s.valid (2 * p.ni)) (hs' : s'.valid (2 * p.ni)) (h : s.same (2 * p.ni) s') :
    lengthOf p radius stretched a s = lengthOf p radius stretched a s' := by
  obtain ⟨t, j, i, l⟩ := s
  obtain ⟨t', j', i', l'⟩ := s'
  simp only [Side.valid] at hs hs'
  obtain ⟨ht, hs⟩ := hs
  obtain ⟨ht', hs'⟩ := hs'
  cases l <;> cases l' <;> simp only [Bool.false_eq_true, if_false, if_true] at hs hs'
  · rw [lengthOf_across p radius stretched a t j i ht hs.1 hs.2,
      lengthOf_across p radius stretched a t' j' i' ht' hs'.1 hs'.2,
      same_across (by omega) ht hs.1 hs.2 ht' hs'.1 hs'.2 h]
  · rw [lengthOf_across p radius stretched a t j i ht hs.1 hs.2,
      same_mixed (by omega) ht hs.1 hs.2 ht' hs'.1 hs'.2 h]
    rfl
  · have h' : Side.same (2 * p.ni) ⟨t', j', i', false⟩ ⟨t, j, i, true⟩ := by
      rcases h with ⟨h1, h2⟩ | ⟨h1, h2⟩
      · exact Or.inl ⟨h1.symm, h2.symm⟩
      · exact Or.inr ⟨h2.symm, h1.symm⟩
    rw [lengthOf_across p radius stretched a t' j' i' ht' hs'.1 hs'.2,
      same_mixed (by omega) ht' hs'.1 hs'.2 ht hs.1 hs.2 h']
    rfl
  · obtain ⟨h1, h2⟩ := same_along (by omega) ht hs.1 hs.2 ht' hs'.1 hs'.2 h
    rw [lengthOf_along p radius stretched a t j i hs.1 hs.2, lengthOf_along p radius stretched a t' j' i' hs'.1 hs'.2,
      C81_supergrid_agrees p hni a t j i t' j' i' ht (by omega) (by omega) ht' (by omega) (by omega) h1,
      C81_supergrid_agrees p hni a t j (i + 1) t' j' (i' + 1) ht (by omega) (by omega) ht' (by omega) (by omega) h2]

/-- Side 0 of the west edge of tile 1 is the last side of the north edge of tile 5 in a supergrid of size 4. -/
example (p : Par) (h : p.ni = 2) (radius : ℝ) (st : Bool) (a : Nat → LonLat) :
    lengthOf p radius st a ⟨0, 0, 0, false⟩ = lengthOf p radius st a ⟨4, 4, 3, true⟩ :=
  C82_lengths_agree p (by omega) radius st a _ _ ⟨by simp, by simp [h]⟩ ⟨by simp, by simp [h]⟩
    (by simp [Side.same, Side.first, Side.second, place, h])

/-- In a stretched grid every length is the distance between the two ends of the side, although lengths at the boundary of
a tile are copied from another tile. -/
theorem C82_lengths_right (p : Par) (hni : 0 < p.ni) (radius : ℝ) (a : Nat → LonLat) (s : Side)
    (hs : s.valid (2 * p.ni)) :
    lengthOf p radius true a s = distance radius (grid p a s.t s.j s.i)
      (if s.along then grid p a s.t s.j (s.i + 1) else grid p a s.t (s.j + 1) s.i) := by
  obtain ⟨t, j, i, l⟩ := s
  simp only [Side.valid] at hs
  obtain ⟨ht, hs⟩ := hs
  cases l <;> simp only [Bool.false_eq_true, if_false, if_true] at hs ⊢
  · rw [lengthOf_across p radius true a t j i ht hs.1 hs.2]
    have g := fun (t' j' i' : Nat) (k l : Nat) => C81_supergrid_agrees p hni a t k l t' j' i' ht
    have dxv := fun (t' j' i' : Nat) (h1 : j' ≤ 2 * p.ni) (h2 : i' < 2 * p.ni) =>
      dx0_ldx (distance radius) (2 * p.ni) (grid p a) t' j' i' h1 h2
    have dyv := fun (t' j' i' : Nat) (h1 : j' < 2 * p.ni) (h2 : i' ≤ 2 * p.ni) =>
      dy0_ldy (distance radius) true (2 * p.ni) (grid p a) t' j' i' h1 h2
    -- a length copied from a row of another tile, which runs in the opposite direction
    have rowc : ∀ t' j', t' < 6 → j' ≤ 2 * p.ni → place (2 * p.ni) t j i = place (2 * p.ni) t' j' (2 * p.ni - j) →
        place (2 * p.ni) t (j + 1) i = place (2 * p.ni) t' j' (2 * p.ni - j - 1) →
        srcVal (dx0 (distance radius) (2 * p.ni) (grid p a)) (dy0 (distance radius) true (2 * p.ni) (grid p a))
          (.dx (ldx (2 * p.ni) t' j' (2 * p.ni - j - 1))) = distance radius (grid p a t j i) (grid p a t (j + 1) i) := by
      intro t' j' ht' hj' e1 e2
      rw [srcVal, dxv t' j' _ hj' (by omega), distance_comm, show 2 * p.ni - j - 1 + 1 = 2 * p.ni - j by omega,
        ← g t' j' _ j i (by omega) (by omega) ht' hj' (by omega) e1,
        ← g t' j' _ (j + 1) i (by omega) (by omega) ht' hj' (by omega) e2]
    -- a length of a column of this or of another tile
    have colc : ∀ t' i', t' < 6 → i' ≤ 2 * p.ni → place (2 * p.ni) t j i = place (2 * p.ni) t' j i' →
        place (2 * p.ni) t (j + 1) i = place (2 * p.ni) t' (j + 1) i' →
        srcVal (dx0 (distance radius) (2 * p.ni) (grid p a)) (dy0 (distance radius) true (2 * p.ni) (grid p a))
          (.dy (ldy (2 * p.ni) t' j i')) = distance radius (grid p a t j i) (grid p a t (j + 1) i) := by
      intro t' i' ht' hi' e1 e2
      rw [srcVal, dyv t' j _ hs.1 hi', if_pos rfl, ← g t' j _ j i (by omega) (by omega) ht' (by omega) (by omega) e1,
        ← g t' (j + 1) _ (j + 1) i (by omega) (by omega) ht' (by omega) (by omega) e2]
    unfold dySource
    split_ifs with h0 h1 h2 h3 h4 h5 h6 h7 h8 h9
    · subst h1
      exact rowc 4 (2 * p.ni) (by omega) (by omega)
        (by simp only [place]; exact triple (by omega) (by omega) (by omega))
        (by simp only [place]; exact triple (by omega) (by omega) (by omega))
    · subst h2
      exact rowc 0 (2 * p.ni) (by omega) (by omega)
        (by simp only [place]; exact triple (by omega) (by omega) (by omega))
        (by simp only [place]; exact triple (by omega) (by omega) (by omega))
    · subst h3
      exact rowc 2 (2 * p.ni) (by omega) (by omega)
        (by simp only [place]; exact triple (by omega) (by omega) (by omega))
        (by simp only [place]; exact triple (by omega) (by omega) (by omega))
    · exact colc t i ht hs.2 rfl rfl
    · subst h5
      exact colc 1 0 (by omega) (by omega)
        (by simp only [place]; exact triple (by omega) (by omega) (by omega))
        (by simp only [place]; exact triple (by omega) (by omega) (by omega))
    · subst h6
      exact rowc 3 0 (by omega) (by omega)
        (by simp only [place]; exact triple (by omega) (by omega) (by omega))
        (by simp only [place]; exact triple (by omega) (by omega) (by omega))
    · subst h7
      exact colc 3 0 (by omega) (by omega)
        (by simp only [place]; exact triple (by omega) (by omega) (by omega))
        (by simp only [place]; exact triple (by omega) (by omega) (by omega))
    · subst h8
      exact rowc 5 0 (by omega) (by omega)
        (by simp only [place]; exact triple (by omega) (by omega) (by omega))
        (by simp only [place]; exact triple (by omega) (by omega) (by omega))
    · subst h9
      exact colc 5 0 (by omega) (by omega)
        (by simp only [place]; exact triple (by omega) (by omega) (by omega))
        (by simp only [place]; exact triple (by omega) (by omega) (by omega))
    · obtain rfl : t = 5 := by omega
      exact rowc 1 0 (by omega) (by omega)
        (by simp only [place]; exact triple (by omega) (by omega) (by omega))
        (by simp only [place]; exact triple (by omega) (by omega) (by omega))
    · exact colc t i ht hs.2 rfl rfl
  · exact lengthOf_along p radius true a t j i hs.1 hs.2

/-- The first side of the east edge of tile 2 in a supergrid of size 2, whose length is copied from tile 4 -/
example (p : Par) (h : p.ni = 1) (radius : ℝ) (a : Nat → LonLat) :
    lengthOf p radius true a ⟨1, 0, 2, false⟩ = distance radius (grid p a 1 0 2) (grid p a 1 1 2) := by
  have := C82_lengths_right p (by omega) radius a ⟨1, 0, 2, false⟩ ⟨by simp, by simp [h]⟩
  simpa using this

/-- Without stretching, `dy` of a side inside a tile is the distance between the two ends of the side which is its mirror
image at the diagonal of the tile. -/
theorem C82_mirrored (p : Par) (radius : ℝ) (a : Nat → LonLat) (t j i : Nat) (ht : t < 6)
    (hj : j < 2 * p.ni) (hi0 : 0 < i) (hi : i < 2 * p.ni) :
    lengthOf p radius false a ⟨t, j, i, false⟩ = distance radius (grid p a t i j) (grid p a t i (j + 1)) := by
  rw [lengthOf_across p radius false a t j i ht hj (by omega)]
  unfold dySource
  rw [if_neg (by omega), if_neg (by omega)]
  rw [srcVal, dy0_ldy _ _ _ _ t j i hj (by omega)]
  rfl

/-- A side inside tile 1 in a supergrid of size 2 -/
example (p : Par) (h : p.ni = 1) (radius : ℝ) (a : Nat → LonLat) :
    lengthOf p radius false a ⟨0, 0, 1, false⟩ = distance radius (grid p a 0 1 0) (grid p a 0 1 1) :=
  C82_mirrored p radius a 0 0 1 (by omega) (by omega) (by omega) (by omega)

end Verif.CubeGrid
