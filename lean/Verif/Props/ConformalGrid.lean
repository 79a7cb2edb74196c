import Verif.Lemmas.ConformalGrid
import Verif.Spec.Cube
import Mathlib.Tactic.IntervalCases
/-
C147: the six tiles of the conformal cubic grid fit together.
-/
namespace Verif
namespace Spec.ConformalGrid

/-- Two points given by longitude and latitude in degrees are the same, their longitudes may differ by one turn. -/
def SamePoint (x y x' y' : ℝ) : Prop := y = y' ∧ (x = x' ∨ x = x' + 360 ∨ x' = x + 360)

end Spec.ConformalGrid

namespace ConformalGrid
open Real Spec.ConformalGrid Spec.Cube

theorem pi_R2D : π * R2D = 180 := by
  unfold R2D
  have := Real.pi_ne_zero
  field_simp

section
variable (n k : Nat) (hnk : k = n / 2) (u : Arr)
include hnk

private theorem g0 (j i : Nat) (hj : j ≤ n) : gridX n u 0 j i = lonE n u j i * R2D + 90 ∧ gridY n u 0 j i = latE n u j i * R2D := by
  constructor
  · show lonE n u (n - j) i * R2D + 90 = _
    rw [lonE_row n k hnk u j i hj]
  · show latE n u (n - (n - j)) i * R2D = _
    rw [show n - (n - j) = j by omega]

private theorem g1 (j i : Nat) (hj : j ≤ n) : gridX n u 1 j i = lonE n u j i * R2D + 180 ∧ gridY n u 1 j i = latE n u j i * R2D := by
  constructor
  · show lonE n u (n - j) i * R2D + 180 = _
    rw [lonE_row n k hnk u j i hj]
  · show latE n u (n - (n - j)) i * R2D = _
    rw [show n - (n - j) = j by omega]

private theorem g2 (j i : Nat) (hj : j ≤ n) (hi : i ≤ n) : gridX n u 2 j i = lonP n u (n - j) (n - i) * R2D ∧ gridY n u 2 j i = latP n u j i * R2D := by
  constructor
  · rfl
  · show latP n u (n - j) (n - i) * R2D = _
    rw [latP_col' n k hnk u _ i (by omega) hi, latP_row n k hnk u j i hj]

private theorem g3 (j i : Nat) (hi : i ≤ n) : (gridX n u 3 j i = lonE n u i j * R2D - 90 ∨ gridX n u 3 j i = lonE n u i j * R2D + 270) ∧
    gridY n u 3 j i = latE n u (n - i) j * R2D := by
  constructor
  · have e : gridX n u 3 j i = if lonE n u (n - i) j * R2D - 90 ≤ -180 then lonE n u (n - i) j * R2D - 90 + 360 else lonE n u (n - i) j * R2D - 90 := rfl
    rw [e, lonE_row n k hnk u i j hi]
    split_ifs
    · right; ring
    · left; rfl
  · rfl

private theorem g4 (j i : Nat) (hi : i ≤ n) : gridX n u 4 j i = lonE n u i j * R2D ∧ gridY n u 4 j i = latE n u (n - i) j * R2D := by
  constructor
  · show lonE n u (n - i) j * R2D = _
    rw [lonE_row n k hnk u i j hi]
  · rfl

private theorem g5 (j i : Nat) (hj : j ≤ n) (hi : i ≤ n) : gridX n u 5 j i = lonP n u i j * R2D ∧ gridY n u 5 j i = -latP n u j i * R2D := by
  constructor
  · show lonP n u (n - (n - i)) (n - (n - j)) * R2D = _
    rw [show n - (n - j) = j by omega, show n - (n - i) = i by omega]
  · show -latP n u (n - j) (n - i) * R2D = _
    rw [latP_col' n k hnk u _ i (by omega) hi, latP_row n k hnk u j i hj]

private theorem lonE_east (hk : 0 < n) (j : Nat) (hj : j ≤ n) : lonE n u j n = -1 / 4 * π := by
  have := lonE_col n k hnk u j 0 hj hk
  rw [Nat.sub_zero] at this
  rw [this, lonE_west n k hnk u j hj]
  ring

private theorem lonE_north (hk : 0 < n) (i : Nat) (hi : i ≤ n) : lonE n u n i = lonP n u 0 i := by
  have := lonE_row n k hnk u 0 i (by omega)
  rw [Nat.sub_zero] at this
  rw [this, lon_south n k hnk u hk i hi]

private theorem latE_north (hk : 0 < n) (i : Nat) (hi : i ≤ n) : latE n u n i = latP n u 0 i := by
  have := latE_row n k hnk u hk 0 i (by omega) hi
  rw [Nat.sub_zero] at this
  rw [this, latE_south n k hnk u i hi, neg_neg]

private theorem latP_north (i : Nat) : latP n u n i = latP n u 0 i := by
  have := latP_row n k hnk u 0 i (by omega)
  rwa [Nat.sub_zero] at this

private theorem latP_west (j : Nat) (hj : j ≤ n) : latP n u j 0 = latP n u 0 j := latP_sym n k hnk u j 0 hj (by omega)

private theorem latP_east (j : Nat) (hj : j ≤ n) : latP n u j n = latP n u 0 j := by
  rw [latP_sym n k hnk u j n hj (by omega), latP_north n k hnk]

/-- The ordered pairs of tiles. -/
private theorem fit (hk : 0 < n) (t j i t' j' i' : Nat) (htt : t < t') (ht' : t' < 6) (hj : j ≤ n) (hi : i ≤ n) (hj' : j' ≤ n) (hi' : i' ≤ n)
    (h : place n t j i = place n t' j' i') :
    SamePoint (gridX n u t j i) (gridY n u t j i) (gridX n u t' j' i') (gridY n u t' j' i') := by
  have pr := pi_R2D
  interval_cases t' <;> interval_cases t <;> simp only [place, Prod.mk.injEq] at h
  · -- 0, 1
    obtain rfl : n = i := by omega
    obtain rfl : i' = 0 := by omega
    obtain rfl : j' = j := by omega
    rw [(g0 n k hnk u _ _ hj).1, (g0 n k hnk u _ _ hj).2, (g1 n k hnk u _ _ hj).1, (g1 n k hnk u _ _ hj).2, lonE_east n k hnk u hk _ hj, lonE_west n k hnk u _ hj, latE_col n k hnk u hk _ hj]
    exact ⟨rfl, Or.inl (by linear_combination (1 / 2 : ℝ) * pr)⟩
  · -- 0, 2
    obtain rfl : n = j := by omega
    obtain rfl : i' = 0 := by omega
    obtain rfl : j' = n - i := by omega
    rw [(g0 n k hnk u _ _ hj).1, (g0 n k hnk u _ _ hj).2, (g2 n k hnk u _ _ hj' hi').1, (g2 n k hnk u _ _ hj' hi').2, Nat.sub_zero, show n - (n - i) = i by omega,
      lonP_east n k hnk u hk i hi, lonE_north n k hnk u hk i hi, latE_north n k hnk u hk i hi, latP_row n k hnk u i 0 hi, latP_west n k hnk u i hi]
    exact ⟨rfl, Or.inl (by linear_combination (-1 / 2 : ℝ) * pr)⟩
  · -- 1, 2
    obtain rfl : n = j := by omega
    obtain rfl : j' = 0 := by omega
    obtain rfl : i' = i := by omega
    rw [(g1 n k hnk u _ _ hj).1, (g1 n k hnk u _ _ hj).2, (g2 n k hnk u _ _ hj' hi').1, (g2 n k hnk u _ _ hj' hi').2, Nat.sub_zero,
      lonP_north n k hnk u hk, lonP_side_col n k hnk u hk i' hi', lonE_north n k hnk u hk i' hi', latE_north n k hnk u hk i' hi']
    exact ⟨rfl, Or.inl (by linear_combination (-1 : ℝ) * pr)⟩
  · omega
  · -- 1, 3
    obtain rfl : n = i := by omega
    obtain rfl : j' = 0 := by omega
    obtain rfl : i' = n - j := by omega
    obtain ⟨gx, gy⟩ := g3 n k hnk u 0 (n - j) hi'
    rw [(g1 n k hnk u _ _ hj).1, (g1 n k hnk u _ _ hj).2, gy, show n - (n - j) = j by omega, lonE_east n k hnk u hk _ hj, latE_col n k hnk u hk _ hj]
    rw [lonE_row n k hnk u j 0 hj, lonE_west n k hnk u _ hj] at gx
    refine ⟨rfl, ?_⟩
    rcases gx with gx | gx <;> rw [gx]
    · right; left; linear_combination (1 / 2 : ℝ) * pr
    · left; linear_combination (1 / 2 : ℝ) * pr
  · -- 2, 3
    obtain rfl : n = i := by omega
    obtain rfl : i' = 0 := by omega
    obtain rfl : j' = j := by omega
    obtain ⟨gx, gy⟩ := g3 n k hnk u j' 0 hi'
    rw [(g2 n k hnk u _ _ hj hi).1, (g2 n k hnk u _ _ hj hi).2, gy, Nat.sub_zero, Nat.sub_self, latE_north n k hnk u hk _ hj, latP_east n k hnk u _ hj]
    rw [lon_south n k hnk u hk _ hj] at gx
    refine ⟨rfl, ?_⟩
    have w := lonP_west n k hnk u hk (n - j') (by omega)
    rw [lonP_side_col n k hnk u hk _ hj] at w
    rcases gx with gx | gx <;> rw [gx] <;> rcases w with w | w <;> rw [w]
    · left; linear_combination (-1 / 2 : ℝ) * pr
    · right; left; linear_combination (3 / 2 : ℝ) * pr
    · right; right; linear_combination (1 / 2 : ℝ) * pr
    · left; linear_combination (3 / 2 : ℝ) * pr
  · -- 0, 4
    obtain rfl : i = 0 := by omega
    obtain rfl : n = j' := by omega
    obtain rfl : i' = n - j := by omega
    rw [(g0 n k hnk u _ _ hj).1, (g0 n k hnk u _ _ hj).2, (g4 n k hnk u _ _ hi').1, (g4 n k hnk u _ _ hi').2, show n - (n - j) = j by omega, lonE_row n k hnk u j _ hj, lonE_east n k hnk u hk _ hj,
      lonE_west n k hnk u _ hj, latE_col n k hnk u hk _ hj]
    exact ⟨rfl, Or.inl (by linear_combination (-1 / 2 : ℝ) * pr)⟩
  · omega
  · -- 2, 4
    obtain rfl : n = j := by omega
    obtain rfl : i' = 0 := by omega
    obtain rfl : j' = n - i := by omega
    rw [(g2 n k hnk u _ _ hj hi).1, (g2 n k hnk u _ _ hj hi).2, (g4 n k hnk u _ _ hi').1, (g4 n k hnk u _ _ hi').2, Nat.sub_self, Nat.sub_zero, latE_north n k hnk u hk _ hj', latP_north n k hnk, latP_col n k hnk u 0 i (by omega) hi,
      lon_south n k hnk u hk _ hj']
    exact ⟨rfl, Or.inl rfl⟩
  · -- 3, 4
    obtain rfl : n = j := by omega
    obtain rfl : j' = 0 := by omega
    obtain rfl : i' = i := by omega
    obtain ⟨gx, gy⟩ := g3 n k hnk u n i' hi
    rw [gy, (g4 n k hnk u _ _ hi').1, (g4 n k hnk u _ _ hi').2, lonE_west n k hnk u _ hi', latE_col n k hnk u hk _ (by omega)]
    rw [lonE_east n k hnk u hk _ hi] at gx
    refine ⟨rfl, ?_⟩
    rcases gx with gx | gx <;> rw [gx]
    · left; linear_combination (1 / 2 : ℝ) * pr
    · right; left; linear_combination (1 / 2 : ℝ) * pr
  · -- 0, 5
    obtain rfl : j = 0 := by omega
    obtain rfl : n = j' := by omega
    obtain rfl : i' = i := by omega
    rw [(g0 n k hnk u _ _ hj).1, (g0 n k hnk u _ _ hj).2, (g5 n k hnk u _ _ hj' hi').1, (g5 n k hnk u _ _ hj' hi').2, lonP_east n k hnk u hk _ hi', lon_south n k hnk u hk _ hi', latE_south n k hnk u _ hi', latP_north n k hnk]
    exact ⟨rfl, Or.inl (by linear_combination (-1 / 2 : ℝ) * pr)⟩
  · -- 1, 5
    obtain rfl : j = 0 := by omega
    obtain rfl : n = i' := by omega
    obtain rfl : j' = n - i := by omega
    rw [(g1 n k hnk u _ _ hj).1, (g1 n k hnk u _ _ hj).2, (g5 n k hnk u _ _ hj' hi').1, (g5 n k hnk u _ _ hj' hi').2, lonP_north n k hnk u hk, lonP_side_col n k hnk u hk i hi, lon_south n k hnk u hk i hi, latE_south n k hnk u i hi,
      latP_row n k hnk u i _ hi, latP_east n k hnk u i hi]
    exact ⟨rfl, Or.inl (by linear_combination (-1 : ℝ) * pr)⟩
  · omega
  · -- 3, 5
    obtain rfl : n = i := by omega
    obtain rfl : j' = 0 := by omega
    obtain rfl : i' = n - j := by omega
    obtain ⟨gx, gy⟩ := g3 n k hnk u j n hi
    rw [gy, (g5 n k hnk u _ _ hj' hi').1, (g5 n k hnk u _ _ hj' hi').2, Nat.sub_self, latE_south n k hnk u j hj, latP_col n k hnk u 0 j (by omega) hj]
    rw [lonE_north n k hnk u hk j hj] at gx
    refine ⟨rfl, ?_⟩
    have w := lonP_west n k hnk u hk (n - j) (by omega)
    rw [lonP_side_col n k hnk u hk _ hj] at w
    rcases gx with gx | gx <;> rw [gx] <;> rcases w with w | w <;> rw [w]
    · left; linear_combination (1 / 2 : ℝ) * pr
    · right; right; linear_combination (3 / 2 : ℝ) * pr
    · right; left; linear_combination (1 / 2 : ℝ) * pr
    · left; linear_combination (-3 / 2 : ℝ) * pr
  · -- 4, 5
    obtain rfl : n = i := by omega
    obtain rfl : i' = 0 := by omega
    obtain rfl : j' = j := by omega
    rw [(g4 n k hnk u _ _ hi).1, (g4 n k hnk u _ _ hi).2, (g5 n k hnk u _ _ hj' hi').1, (g5 n k hnk u _ _ hj' hi').2, Nat.sub_self, lonE_north n k hnk u hk _ hj', latE_south n k hnk u _ hj', latP_west n k hnk u _ hj']
    exact ⟨rfl, Or.inl rfl⟩

end

/-- **C147.** Points of two tiles which are at the same place of the cube are written as the same point of the sphere. -/
theorem C147_tiles_fit (n : Nat) (hn : 0 < n) (u : Arr) (t j i t' j' i' : Nat) (ht : t < 6) (ht' : t' < 6) (hj : j ≤ n) (hi : i ≤ n) (hj' : j' ≤ n) (hi' : i' ≤ n)
    (h : place n t j i = place n t' j' i') : SamePoint (gridX n u t j i) (gridY n u t j i) (gridX n u t' j' i') (gridY n u t' j' i') := by
  rcases lt_trichotomy t t' with c | rfl | c
  · exact fit n _ rfl u hn t j i t' j' i' c ht' hj hi hj' hi' h
  · have : j = j' ∧ i = i' := by
      interval_cases t <;> simp only [place, Prod.mk.injEq] at h <;> omega
    rw [this.1, this.2]
    exact ⟨rfl, Or.inl rfl⟩
  · obtain ⟨a, b⟩ := fit n _ rfl u hn t' j' i' t j i c ht hj' hi' hj hi h.symm
    refine ⟨a.symm, ?_⟩
    rcases b with b | b | b
    · exact Or.inl b.symm
    · exact Or.inr (Or.inr b)
    · exact Or.inr (Or.inl b)

private theorem latP_corner (n : Nat) (u : Arr) : latP n u 0 0 = arctan (1 / √2) := by
  rw [latP_quadrant n _ rfl u 0 0 (by omega) (by omega)]
  show latOf (pts n 0 0) = _
  unfold pts
  rw [coord_zero, map_corner]
  unfold latOf
  have s3 := sqrt3
  have p3 : 0 < √3 := by positivity
  have e : √(-(1 / √3) * -(1 / √3) + -(1 / √3) * -(1 / √3)) = √2 / √3 := by
    rw [show -(1 / √3) * -(1 / √3) + -(1 / √3) * -(1 / √3) = 2 / 3 by field_simp; linarith, Real.sqrt_div (by norm_num)]
  simp only [e]
  rw [if_neg (by positivity)]
  congr 1
  field_simp

/-- **C147.** The eight corners of the cube: those of the northern tile at 45, 135, -135 and -45 degrees, all at the latitude whose tangent is 1/√2, and those of the southern tile
opposite. -/
theorem C147_corners (n : Nat) (hn : 0 < n) (u : Arr) :
    (gridX n u 2 0 0 = 45 ∧ gridX n u 2 0 n = 135 ∧ gridX n u 2 n n = -135 ∧ gridX n u 2 n 0 = -45) ∧
    (gridX n u 5 n n = 45 ∧ gridX n u 5 0 n = 135 ∧ gridX n u 5 0 0 = -135 ∧ gridX n u 5 n 0 = -45) ∧
    (∀ j i, (j = 0 ∨ j = n) → (i = 0 ∨ i = n) → gridY n u 2 j i = arctan (1 / √2) * (180 / π) ∧ gridY n u 5 j i = -(arctan (1 / √2) * (180 / π))) := by
  have pr := pi_R2D
  have a : lonP n u 0 0 = -3 / 4 * π := by rw [lonP_quadrant n _ rfl u 0 0 (by omega) (by omega), if_pos rfl]
  have b : lonP n u 0 n = -1 / 4 * π := by
    have := lonP_side_col n _ rfl u hn 0 (by omega)
    rw [Nat.sub_zero, a] at this
    rw [this]; ring
  have c := lonP_north n _ rfl u hn 0
  have d := lonP_north n _ rfl u hn n
  rw [a] at c
  rw [b] at d
  have z : (0 : Nat) ≤ n := by omega
  refine ⟨⟨?_, ?_, ?_, ?_⟩, ⟨?_, ?_, ?_, ?_⟩, ?_⟩
  · rw [(g2 n _ rfl u 0 0 z z).1, Nat.sub_zero, d]; linear_combination (1 / 4) * pr
  · rw [(g2 n _ rfl u 0 n z le_rfl).1, Nat.sub_zero, Nat.sub_self, c]; linear_combination (3 / 4) * pr
  · rw [(g2 n _ rfl u n n le_rfl le_rfl).1, Nat.sub_self, a]; linear_combination (-3 / 4) * pr
  · rw [(g2 n _ rfl u n 0 le_rfl z).1, Nat.sub_self, Nat.sub_zero, b]; linear_combination (-1 / 4) * pr
  · rw [(g5 n _ rfl u n n le_rfl le_rfl).1, d]; linear_combination (1 / 4) * pr
  · rw [(g5 n _ rfl u 0 n z le_rfl).1, c]; linear_combination (3 / 4) * pr
  · rw [(g5 n _ rfl u 0 0 z z).1, a]; linear_combination (-3 / 4) * pr
  · rw [(g5 n _ rfl u n 0 le_rfl z).1, b]; linear_combination (-1 / 4) * pr
  · intro j i hj hi
    have l : latP n u j i = arctan (1 / √2) := by
      rcases hj with rfl | rfl <;> rcases hi with rfl | rfl
      · exact latP_corner n u
      · rw [latP_sym i _ rfl u 0 i z le_rfl, latP_north i _ rfl, latP_corner]
      · rw [latP_north j _ rfl, latP_corner]
      · rw [latP_north _ _ rfl, latP_sym _ _ rfl u 0 _ z le_rfl, latP_north _ _ rfl, latP_corner]
    have hj' : j ≤ n := by omega
    have hi' : i ≤ n := by omega
    rw [(g2 n _ rfl u j i hj' hi').2, (g5 n _ rfl u j i hj' hi').2, l]
    exact ⟨rfl, neg_mul _ _⟩

/-- **C147.** When the number of cells is even, the poles are the middle points of the third and the sixth tile and the equator is the middle line of the four others. -/
theorem C147_poles_equator (k : Nat) (hk : 0 < k) (u : Arr) : gridY (2 * k) u 2 k k = 90 ∧ gridY (2 * k) u 5 k k = -90 ∧
    ∀ i, i ≤ 2 * k → gridY (2 * k) u 0 k i = 0 ∧ gridY (2 * k) u 1 k i = 0 ∧ gridY (2 * k) u 3 i k = 0 ∧ gridY (2 * k) u 4 i k = 0 := by
  have hk2 : k = 2 * k / 2 := by omega
  have pr := pi_R2D
  have l : latP (2 * k) u k k = π * 0.5 := by
    rw [latP_quadrant _ k hk2 u k k le_rfl le_rfl, max_self, min_self]
    unfold pts
    rw [coord_half _ k hk rfl]
    obtain ⟨z, hz, e⟩ := map_center
    rw [e]
    unfold latOf
    simp [hz.ne']
  refine ⟨?_, ?_, fun i hi => ?_⟩
  · rw [(g2 _ k hk2 u k k (by omega) (by omega)).2, l]; linear_combination (1 / 2) * pr
  · rw [(g5 _ k hk2 u k k (by omega) (by omega)).2, l]; linear_combination (-1 / 2) * pr
  · have m := latE_mid _ k hk2 u (by omega) i hi
    rw [(g0 _ k hk2 u k i (by omega)).2, (g1 _ k hk2 u k i (by omega)).2, (g3 _ k hk2 u i k (by omega)).2, (g4 _ k hk2 u i k (by omega)).2, show 2 * k - k = k by omega, m]
    simp

/-- **C147.** The sides between the four tiles at the equator are the meridians 45 degrees west, 45 and 135 degrees east and 135 degrees west (or 225 east). -/
theorem C147_meridians (n : Nat) (hn : 0 < n) (u : Arr) (j : Nat) (hj : j ≤ n) : gridX n u 0 j 0 = -45 ∧ gridX n u 0 j n = 45 ∧ gridX n u 1 j 0 = 45 ∧ gridX n u 1 j n = 135 ∧
    (gridX n u 3 0 j = 135 ∨ gridX n u 3 0 j = -225) ∧ (gridX n u 3 n j = -135 ∨ gridX n u 3 n j = 225) ∧ gridX n u 4 0 j = -135 ∧ gridX n u 4 n j = -45 := by
  have pr := pi_R2D
  have w := lonE_west n _ rfl u j hj
  have e := lonE_east n _ rfl u hn j hj
  have g := (g3 n _ rfl u 0 j hj).1
  have g' := (g3 n _ rfl u n j hj).1
  rw [w] at g
  rw [e] at g'
  rw [(g0 n _ rfl u j 0 hj).1, (g0 n _ rfl u j n hj).1, (g1 n _ rfl u j 0 hj).1, (g1 n _ rfl u j n hj).1, (g4 n _ rfl u 0 j hj).1, (g4 n _ rfl u n j hj).1, w, e]
  refine ⟨?_, ?_, ?_, ?_, ?_, ?_, ?_, ?_⟩
  · linear_combination (-3 / 4) * pr
  · linear_combination (-1 / 4) * pr
  · linear_combination (-3 / 4) * pr
  · linear_combination (-1 / 4) * pr
  · rcases g with g | g
    · right; rw [g]; linear_combination (-3 / 4) * pr
    · left; rw [g]; linear_combination (-3 / 4) * pr
  · rcases g' with g | g
    · left; rw [g]; linear_combination (-1 / 4) * pr
    · right; rw [g]; linear_combination (-1 / 4) * pr
  · linear_combination (-3 / 4) * pr
  · linear_combination (-1 / 4) * pr

/-- **C147.** No coordinate which is written is left as it was in memory. -/
theorem C147_all_set (n : Nat) (u u' : Arr) (t j i : Nat) (ht : t < 6) (hj : j ≤ n) (hi : i ≤ n) : gridX n u t j i = gridX n u' t j i ∧ gridY n u t j i = gridY n u' t j i := by
  have h1 := fun j i hj hi => latP_indep n _ rfl u u' j i hj hi
  have h2 := fun j i hj hi => lonP_indep n _ rfl u u' j i hj hi
  have h3 := fun j i hj hi => lonE_indep n _ rfl u u' j i hj hi
  have h4 := fun j i hj hi => latE_indep n _ rfl u u' j i hj hi
  have a : n - j ≤ n := by omega
  have b : n - i ≤ n := by omega
  have c : n - (n - i) ≤ n := by omega
  have d : n - (n - j) ≤ n := by omega
  interval_cases t <;> unfold gridX gridY permute rawX rawY <;> simp only <;> constructor <;>
    first
    | rw [h1 _ _ (by omega) (by omega)]
    | rw [h2 _ _ (by omega) (by omega)]
    | rw [h3 _ _ (by omega) (by omega)]
    | rw [h4 _ _ (by omega) (by omega)]

/-- Full claim: a cell of a tile has two distinct rows of points, for every size which make_hgrid takes. With an odd number of cells (make_hgrid.c does not refuse it for this grid) two
lines of points of the four tiles at the equator have latitude 0, the cells between them have no height. -/
theorem C147_odd_wrong (n : Nat) (hn : 2 ≤ n) (ho : n % 2 = 1) (u : Arr) (i : Nat) (hi : i ≤ n) :
    gridY n u 0 (n / 2) i = 0 ∧ gridY n u 0 (n / 2 + 1) i = 0 ∧ gridX n u 0 (n / 2) i = gridX n u 0 (n / 2 + 1) i := by
  have m := latE_mid n _ rfl u hn i hi
  have r := latE_row n _ rfl u (by omega) (n / 2) i (by omega) hi
  have x := lonE_row n _ rfl u (n / 2) i (by omega)
  rw [show n - n / 2 = n / 2 + 1 by omega] at r x
  rw [(g0 n _ rfl u (n / 2) i (by omega)).2, (g0 n _ rfl u (n / 2 + 1) i (by omega)).2, (g0 n _ rfl u (n / 2) i (by omega)).1, (g0 n _ rfl u (n / 2 + 1) i (by omega)).1, r, m, x]
  simp

/-- The north-east corner of the first tile is the south-west corner of the third one. -/
example (u : Arr) : SamePoint (gridX 4 u 0 4 4) (gridY 4 u 0 4 4) 45 (arctan (1 / √2) * (180 / π)) := by
  have h := C147_tiles_fit 4 (by norm_num) u 0 4 4 2 0 0 (by norm_num) (by norm_num) (by norm_num) (by norm_num) (by norm_num) (by norm_num) rfl
  obtain ⟨⟨a, -⟩, -, b⟩ := C147_corners 4 (by norm_num) u
  rwa [a, (b 0 0 (Or.inl rfl) (Or.inl rfl)).1] at h

end ConformalGrid
end Verif
