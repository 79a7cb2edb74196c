import Verif.Lemmas.Gnomonic
import Verif.Lemmas.CubeGrid
import Verif.Props.CubeGrid
/-
C83: the corners of a gnomonic cubed sphere grid.
-/
namespace Verif.Gnomonic

open Verif.Vec3 Verif.CubeGrid Verif.Spec Verif.Spec.Cube

theorem wrap_point (x lat : ℝ) : spherePoint (if x < 0 then x + 2 * Real.pi else x, lat) = spherePoint (x, lat) := by
  split_ifs
  · simp [spherePoint, Real.cos_add_two_pi, Real.sin_add_two_pi]
  · rfl

theorem clean_lat {eps lon lat : ℝ} {w : V ℝ} (he1 : eps ≤ 1 / 2) (hc : Clear eps w) (hp : spherePoint (lon, lat) = w) :
    (if |lat| < eps then 0 else lat) = lat := by
  split_ifs with h
  · have h2 : Real.sin lat = w 2 := by rw [← hp]; simp [spherePoint]
    have hs : |Real.sin lat| ≤ |lat| := Real.abs_sin_le_abs
    have hz : Real.sin lat = 0 := by
      rcases hc 2 with e | e
      · rw [h2, e]
      · rw [← h2] at e; exfalso; linarith
    have hb := abs_lt.1 h
    have := Real.two_le_pi
    exact ((Real.sin_eq_zero_iff_of_lt_of_lt (by linarith) (by linarith)).1 hz).symm
  · rfl

theorem clean_exact {eps : ℝ} {p : LonLat} {w : V ℝ} (he1 : eps ≤ 1 / 2) (hc : Clear eps w) (hp : spherePoint p = w) :
    spherePoint (clean eps false p) = w := by
  unfold clean
  simp only [Bool.false_eq_true, if_false]
  have hx := wrap_point p.1 p.2
  rw [show ((p.1, p.2) : LonLat) = p from rfl, hp] at hx
  rw [clean_lat he1 hc hx]
  generalize (if p.1 < 0 then p.1 + 2 * Real.pi else p.1) = x at hx
  split_ifs with h
  · have h1 : Real.cos p.2 * Real.sin x = w 1 := by rw [← hx]; simp [spherePoint]
    have hs : |Real.sin x| ≤ |x| := Real.abs_sin_le_abs
    have hz : Real.cos p.2 * Real.sin x = 0 := by
      rcases hc 1 with e | e
      · rw [h1, e]
      · exfalso
        rw [← h1, abs_mul] at e
        nlinarith [Real.abs_cos_le_one p.2, abs_nonneg (Real.sin x), abs_nonneg (Real.cos p.2)]
    rcases mul_eq_zero.1 hz with e | e
    · rw [← hx]
      funext k
      fin_cases k <;> simp [spherePoint, e]
    · have hb := abs_lt.1 h
      have := Real.two_le_pi
      rw [← (Real.sin_eq_zero_iff_of_lt_of_lt (by linarith) (by linarith)).1 e]
      exact hx
  · exact hx

/-- Turned to the west by the angle `a` -/
noncomputable def turnWest (a : ℝ) (w : V ℝ) : V ℝ :=
  ![w 0 * Real.cos a + w 1 * Real.sin a, w 1 * Real.cos a - w 0 * Real.sin a, w 2]

theorem clean_shift {eps : ℝ} {p : LonLat} {w : V ℝ} (he : 0 < eps) (he1 : eps ≤ 1 / 2) (hc : Clear eps w)
    (hp : spherePoint p = w) :
    dist2 (spherePoint (clean eps true p)) (turnWest (Real.pi / 18) w) < eps ^ 2 := by
  unfold clean
  simp only [if_true]
  have hx := wrap_point (p.1 - Real.pi / 18) p.2
  rw [clean_lat he1 hc (lon := p.1) hp]
  have ht : spherePoint (p.1 - Real.pi / 18, p.2) = turnWest (Real.pi / 18) w := by
    rw [← hp]
    funext k
    fin_cases k <;> simp [spherePoint, turnWest, Real.cos_sub, Real.sin_sub] <;> ring
  rw [ht] at hx
  generalize (if p.1 - Real.pi / 18 < 0 then p.1 - Real.pi / 18 + 2 * Real.pi else p.1 - Real.pi / 18) = x at hx
  rw [← hx]
  split_ifs with h
  · have h1 := Real.one_sub_sq_div_two_le_cos (x := x)
    have h2 := Real.sin_sq_add_cos_sq x
    have h3 : Real.cos p.2 ^ 2 ≤ 1 := by nlinarith [Real.sin_sq_add_cos_sq p.2, sq_nonneg (Real.sin p.2)]
    have h4 : x ^ 2 < eps ^ 2 := by rw [← sq_abs x]; exact pow_lt_pow_left₀ h (abs_nonneg x) two_ne_zero
    simp [dist2, inner3, spherePoint]
    have e : (Real.cos p.2 - Real.cos p.2 * Real.cos x) * (Real.cos p.2 - Real.cos p.2 * Real.cos x)
        + Real.cos p.2 * Real.sin x * (Real.cos p.2 * Real.sin x) = Real.cos p.2 ^ 2 * (2 - 2 * Real.cos x) := by
      linear_combination Real.cos p.2 ^ 2 * h2
    rw [e]
    nlinarith [Real.cos_le_one x, sq_nonneg (Real.cos p.2)]
  · simp [dist2, inner3]; positivity

theorem corners_idx (eps r : ℝ) (shift : Bool) (n t j i : Nat) (hj : j ≤ n) (hi : i ≤ n) :
    corners eps r shift n (t * (n + 1) * (n + 1) + j * (n + 1) + i) = corner eps r shift n t j i := by
  have h1 : j * (n + 1) + i < (n + 1) * (n + 1) := by nlinarith
  have e : t * (n + 1) * (n + 1) + j * (n + 1) + i = (n + 1) * (n + 1) * t + (j * (n + 1) + i) := by ring
  have a : (t * (n + 1) * (n + 1) + j * (n + 1) + i) / ((n + 1) * (n + 1)) = t := by
    rw [e, Nat.mul_add_div (by positivity), Nat.div_eq_of_lt h1, add_zero]
  have b : (t * (n + 1) * (n + 1) + j * (n + 1) + i) % ((n + 1) * (n + 1)) = j * (n + 1) + i := by
    rw [e, Nat.mul_add_mod, Nat.mod_eq_of_lt h1]
  have c : (t * (n + 1) * (n + 1) + j * (n + 1) + i) % (n + 1) = i := by
    rw [show t * (n + 1) * (n + 1) + j * (n + 1) + i = (n + 1) * (t * (n + 1) + j) + i by ring, Nat.mul_add_mod,
      Nat.mod_eq_of_lt (by omega)]
  have d : (j * (n + 1) + i) / (n + 1) = j := by
    rw [Nat.mul_comm, Nat.mul_add_div (by omega), Nat.div_eq_of_lt (by omega), add_zero]
  unfold corners
  rw [a, b, c, d]

/-- The corner in row `j` and column `i` of tile `t` of a grid which is neither shifted nor stretched is where the line from
the centre through the point `(a, b, c)` of the cube meets the sphere; `(a, b, c)` is the place of the corner on the cube, with
every edge divided under equal angles. `eps10` is the threshold below which longitudes and latitudes are
taken for 0; the condition says that the grid has less than `0.4 / eps10`, in the program four billion, cells in a row. -/
theorem C83_corners (eps10 radius : ℝ) (n t j i : Nat) (he : 0 < eps10) (hr : 1 ≤ radius) (hn : 0 < n) (ht : t < 6)
    (hj : j ≤ n) (hi : i ≤ n) (hs : eps10 * n ≤ 2 / 5) :
    spherePoint (consistent n (corners eps10 radius false n) (t * (n + 1) * (n + 1) + j * (n + 1) + i))
      = project (cubePoint n (place n t j i)) := by
  have h1 : (1 : ℝ) ≤ n := by exact_mod_cast hn
  have he1 : eps10 ≤ 1 / 2 := by nlinarith
  obtain ⟨t', j', i', htt, hj', hi', hpl, -, hco⟩ := C81_corner_kept n hn (corners eps10 radius false n) t j i ht hj hi
  have ht' : t' < 6 := by omega
  rw [hco, corners_idx eps10 radius false n t' j' i' hj' hi', ← hpl]
  unfold corner
  exact clean_exact he1 (dir_clear hn ht' hj' hi' hs) (tile_at he hr hn ht' hj' hi' hs).1

/-- The same for a grid which is shifted: it is the grid which is not shifted, turned by 10 degrees to the west, up to the
threshold. -/
theorem C83_shifted (eps10 radius : ℝ) (n t j i : Nat) (he : 0 < eps10) (hr : 1 ≤ radius) (hn : 0 < n) (ht : t < 6)
    (hj : j ≤ n) (hi : i ≤ n) (hs : eps10 * n ≤ 2 / 5) :
    dist2 (spherePoint (consistent n (corners eps10 radius true n) (t * (n + 1) * (n + 1) + j * (n + 1) + i)))
      (turnWest (Real.pi / 18) (project (cubePoint n (place n t j i)))) < eps10 ^ 2 := by
  have h1 : (1 : ℝ) ≤ n := by exact_mod_cast hn
  have he1 : eps10 ≤ 1 / 2 := by nlinarith
  obtain ⟨t', j', i', htt, hj', hi', hpl, -, hco⟩ := C81_corner_kept n hn (corners eps10 radius true n) t j i ht hj hi
  have ht' : t' < 6 := by omega
  rw [hco, corners_idx eps10 radius true n t' j' i' hj' hi', ← hpl]
  unfold corner
  exact clean_shift he he1 (dir_clear hn ht' hj' hi' hs) (tile_at he hr hn ht' hj' hi' hs).1

theorem permOf_inner (t : Nat) (u v : V ℝ) : inner3 (permOf t u) (permOf t v) = inner3 u v := by
  unfold permOf
  split <;> simp [inner3] <;> ring

theorem permOf_volume (t : Nat) (u v w : V ℝ) : volume3 (permOf t u) (permOf t v) (permOf t w) = volume3 u v w := by
  unfold permOf
  split <;> simp [volume3] <;> ring

/-- Every tile is the first tile, rotated as a whole: sizes, angles and orientation of its cells are those of the first
tile. -/
theorem C83_rotations (eps10 radius : ℝ) (n : Nat) (he : 0 < eps10) (hr : 1 ≤ radius) (hn : 0 < n)
    (hs : eps10 * n ≤ 2 / 5) (t : Nat) (ht : t < 6) :
    ∃ R : V ℝ → V ℝ, (∀ u v, inner3 (R u) (R v) = inner3 u v) ∧ (∀ u v w, volume3 (R u) (R v) (R w) = volume3 u v w) ∧
      ∀ j i, j ≤ n → i ≤ n →
        spherePoint (consistent n (corners eps10 radius false n) (t * (n + 1) * (n + 1) + j * (n + 1) + i))
          = R (spherePoint (consistent n (corners eps10 radius false n) (j * (n + 1) + i))) := by
  refine ⟨permOf t, permOf_inner t, permOf_volume t, fun j i hj hi => ?_⟩
  have h0 := C83_corners eps10 radius n 0 j i he hr hn (by omega) hj hi hs
  rw [zero_mul, zero_mul, zero_add] at h0
  rw [C83_corners eps10 radius n t j i he hr hn ht hj hi hs, h0]
  have e := dir_eq hn ht hj hi
  have e0 := dir_eq (t := 0) hn (by omega) hj hi
  unfold dir at e e0
  rw [e, e0]
  rfl

/-- A point of the surface of the cube has a coordinate 0 or `n`. -/
def onSurface (n : Nat) (p : Nat × Nat × Nat) : Prop :=
  p.1 ≤ n ∧ p.2.1 ≤ n ∧ p.2.2 ≤ n ∧ (p.1 = 0 ∨ p.1 = n ∨ p.2.1 = 0 ∨ p.2.1 = n ∨ p.2.2 = 0 ∨ p.2.2 = n)

theorem place_surface {n t j i : Nat} (ht : t < 6) (hj : j ≤ n) (hi : i ≤ n) : onSurface n (place n t j i) := by
  unfold onSurface
  interval_cases t <;> simp only [place] <;> refine ⟨by omega, by omega, by omega, ?_⟩ <;> simp

theorem coordinate_inj {n k l : Nat} (hn : 0 < n) (hk : k ≤ n) (hl : l ≤ n) (h : coordinate n k = coordinate n l) : k = l := by
  rcases lt_trichotomy k l with g | g | g
  · exact absurd h (coordinate_lt hn g hl).ne
  · exact g
  · exact absurd h (coordinate_lt hn g hk).ne'

/-- The largest component of a point of the surface is 1 or -1. -/
theorem surface_scale {n : Nat} (hn : 0 < n) {p q : Nat × Nat × Nat} (hp : onSurface n p) (hq : onSurface n q) {s : ℝ}
    (hs : 0 < s) (h : ∀ k, cubePoint n p k = s * cubePoint n q k) : 1 ≤ s := by
  have l0 := coordinate_zero n
  have l1 := coordinate_last hn
  have h0 : coordinate n p.1 = s * coordinate n q.1 := h 0
  have h1 : coordinate n p.2.1 = s * coordinate n q.2.1 := h 1
  have h2 : coordinate n p.2.2 = s * coordinate n q.2.2 := h 2
  have b0 := abs_le.1 (coordinate_le hn hq.1)
  have b1 := abs_le.1 (coordinate_le hn hq.2.1)
  have b2 := abs_le.1 (coordinate_le hn hq.2.2.1)
  rcases hp.2.2.2 with g | g | g | g | g | g
  · rw [g, l0] at h0; nlinarith
  · rw [g, l1] at h0; nlinarith
  · rw [g, l0] at h1; nlinarith
  · rw [g, l1] at h1; nlinarith
  · rw [g, l0] at h2; nlinarith
  · rw [g, l1] at h2; nlinarith

/-- Corners are the same point of the sphere only if they are the same place of the cube: no cell has a side of length 0, and
tiles touch only along their common edges. -/
theorem C83_distinct (eps10 radius : ℝ) (n t j i t' j' i' : Nat) (he : 0 < eps10) (hr : 1 ≤ radius) (hn : 0 < n)
    (hs : eps10 * n ≤ 2 / 5) (ht : t < 6) (hj : j ≤ n) (hi : i ≤ n) (ht' : t' < 6) (hj' : j' ≤ n) (hi' : i' ≤ n)
    (h : spherePoint (consistent n (corners eps10 radius false n) (t * (n + 1) * (n + 1) + j * (n + 1) + i))
      = spherePoint (consistent n (corners eps10 radius false n) (t' * (n + 1) * (n + 1) + j' * (n + 1) + i'))) :
    place n t j i = place n t' j' i' := by
  rw [C83_corners eps10 radius n t j i he hr hn ht hj hi hs,
    C83_corners eps10 radius n t' j' i' he hr hn ht' hj' hi' hs] at h
  have hp := place_surface ht hj hi
  have hq := place_surface ht' hj' hi'
  generalize place n t j i = p at h hp
  generalize place n t' j' i' = q at h hq
  have pos : ∀ p : Nat × Nat × Nat, onSurface n p → 0 < inner3 (cubePoint n p) (cubePoint n p) := by
    intro p hp
    have l0 := coordinate_zero n
    have l1 := coordinate_last hn
    have e : inner3 (cubePoint n p) (cubePoint n p) = coordinate n p.1 ^ 2 + coordinate n p.2.1 ^ 2 + coordinate n p.2.2 ^ 2 := by
      simp [inner3, cubePoint]; ring
    rw [e]
    have a0 := sq_nonneg (coordinate n p.1)
    have a1 := sq_nonneg (coordinate n p.2.1)
    have a2 := sq_nonneg (coordinate n p.2.2)
    rcases hp.2.2.2 with g | g | g | g | g | g
    · rw [g, l0] at *; linarith
    · rw [g, l1] at *; linarith
    · rw [g, l0] at *; linarith
    · rw [g, l1] at *; linarith
    · rw [g, l0] at *; linarith
    · rw [g, l1] at *; linarith
  have sp := Real.sqrt_pos.2 (pos p hp)
  have sq := Real.sqrt_pos.2 (pos q hq)
  have key : ∀ k, cubePoint n p k = Real.sqrt (inner3 (cubePoint n p) (cubePoint n p))
      / Real.sqrt (inner3 (cubePoint n q) (cubePoint n q)) * cubePoint n q k := by
    intro k
    have hk := congrFun h k
    unfold project at hk
    rw [div_eq_div_iff sp.ne' sq.ne'] at hk
    rw [div_mul_eq_mul_div, eq_div_iff sq.ne', hk]; ring
  have key' : ∀ k, cubePoint n q k = Real.sqrt (inner3 (cubePoint n q) (cubePoint n q))
      / Real.sqrt (inner3 (cubePoint n p) (cubePoint n p)) * cubePoint n p k := by
    intro k
    have hk := congrFun h k
    unfold project at hk
    rw [div_eq_div_iff sp.ne' sq.ne'] at hk
    rw [div_mul_eq_mul_div, eq_div_iff sp.ne', ← hk]; ring
  have s1 := surface_scale hn hp hq (div_pos sp sq) key
  have s2 := surface_scale hn hq hp (div_pos sq sp) key'
  rw [le_div_iff₀ sq, one_mul] at s1
  rw [le_div_iff₀ sp, one_mul] at s2
  have s3 : Real.sqrt (inner3 (cubePoint n p) (cubePoint n p)) / Real.sqrt (inner3 (cubePoint n q) (cubePoint n q)) = 1 := by
    rw [div_eq_one_iff_eq sq.ne']; linarith
  rw [s3] at key
  have c0 := key 0
  have c1 := key 1
  have c2 := key 2
  rw [one_mul] at c0 c1 c2
  have d0 := coordinate_inj hn hp.1 hq.1 c0
  have d1 := coordinate_inj hn hp.2.1 hq.2.1 c1
  have d2 := coordinate_inj hn hp.2.2.1 hq.2.2.1 c2
  exact Prod.ext d0 (Prod.ext d1 d2)

theorem edge_point {n k : Nat} (hn : 0 < n) (hk : k ≤ n) :
    Real.sqrt (1 + 1 + coordinate n k * coordinate n k) * Real.cos (ang n k) = Real.sqrt 2 ∧
    coordinate n k * Real.cos (ang n k) = Real.sqrt 2 * Real.sin (ang n k) := by
  have hc := lt_of_lt_of_le cos_alpha_pos (ang_cos_pos hn hk)
  have h2 := sq2
  have hs := Real.sin_sq_add_cos_sq (ang n k)
  have e : coordinate n k * Real.cos (ang n k) = Real.sqrt 2 * Real.sin (ang n k) := by
    rw [coordinate_eq, Real.tan_eq_sin_div_cos]; field_simp
  refine ⟨?_, e⟩
  have h0 : 0 ≤ 1 + 1 + coordinate n k * coordinate n k := by nlinarith [mul_self_nonneg (coordinate n k)]
  have hsq := Real.mul_self_sqrt h0
  have e2 : (Real.sqrt (1 + 1 + coordinate n k * coordinate n k) * Real.cos (ang n k)) ^ 2 = Real.sqrt 2 ^ 2 := by
    linear_combination Real.cos (ang n k) ^ 2 * hsq + (coordinate n k * Real.cos (ang n k) + Real.sqrt 2 * Real.sin (ang n k)) * e
      + (Real.sin (ang n k) ^ 2 - 1) * h2 + 2 * hs
  exact (pow_left_inj₀ (mul_nonneg (Real.sqrt_nonneg _) hc.le) sqrt2_pos.le two_ne_zero).1 e2

/-- Corners which follow each other on an edge of the cube are at the same distance on all twelve edges: they are seen from the
centre under the angle `2 * halfEdge / n`. -/
theorem C83_equal_edges (eps10 radius : ℝ) (n t j i t' j' i' : Nat) (he : 0 < eps10) (hr : 1 ≤ radius) (hn : 0 < n)
    (hs : eps10 * n ≤ 2 / 5) (ht : t < 6) (hj : j ≤ n) (hi : i ≤ n) (ht' : t' < 6) (hj' : j' ≤ n) (hi' : i' ≤ n)
    (a b k : Nat) (ha : a = 0 ∨ a = n) (hb : b = 0 ∨ b = n) (hk : k < n)
    (h : (place n t j i = (a, b, k) ∧ place n t' j' i' = (a, b, k + 1)) ∨
      (place n t j i = (a, k, b) ∧ place n t' j' i' = (a, k + 1, b)) ∨
      (place n t j i = (k, a, b) ∧ place n t' j' i' = (k + 1, a, b))) :
    inner3 (spherePoint (consistent n (corners eps10 radius false n) (t * (n + 1) * (n + 1) + j * (n + 1) + i)))
      (spherePoint (consistent n (corners eps10 radius false n) (t' * (n + 1) * (n + 1) + j' * (n + 1) + i')))
      = Real.cos (2 * halfEdge / n) := by
  rw [C83_corners eps10 radius n t j i he hr hn ht hj hi hs,
    C83_corners eps10 radius n t' j' i' he hr hn ht' hj' hi' hs]
  have sa : coordinate n a * coordinate n a = 1 := by
    rcases ha with e | e
    · rw [e, coordinate_zero]; norm_num
    · rw [e, coordinate_last hn]; norm_num
  have sb : coordinate n b * coordinate n b = 1 := by
    rcases hb with e | e
    · rw [e, coordinate_zero]; norm_num
    · rw [e, coordinate_last hn]; norm_num
  obtain ⟨p1, p2⟩ := edge_point hn hk.le
  obtain ⟨q1, q2⟩ := edge_point hn (show k + 1 ≤ n by omega)
  have c1 := lt_of_lt_of_le cos_alpha_pos (ang_cos_pos hn hk.le)
  have c2 := lt_of_lt_of_le cos_alpha_pos (ang_cos_pos hn (show k + 1 ≤ n by omega))
  have key : (1 + 1 + coordinate n k * coordinate n (k + 1)) / (Real.sqrt (1 + 1 + coordinate n k * coordinate n k)
      * Real.sqrt (1 + 1 + coordinate n (k + 1) * coordinate n (k + 1))) = Real.cos (2 * halfEdge / n) := by
    have e : Real.cos (2 * halfEdge / n) = Real.cos (ang n (k + 1)) * Real.cos (ang n k)
        + Real.sin (ang n (k + 1)) * Real.sin (ang n k) := by
      rw [← Real.cos_sub, ang_step, ← alpha_eq]; congr 1; ring
    rw [e]
    generalize Real.sqrt (1 + 1 + coordinate n k * coordinate n k) = S at *
    generalize Real.sqrt (1 + 1 + coordinate n (k + 1) * coordinate n (k + 1)) = T at *
    have hS : S ≠ 0 := by
      intro e0; rw [e0, zero_mul] at p1; exact sqrt2_pos.ne p1
    have hT : T ≠ 0 := by
      intro e0; rw [e0, zero_mul] at q1; exact sqrt2_pos.ne q1
    rw [div_eq_iff (mul_ne_zero hS hT)]
    have h2 := sq2
    have hc : Real.cos (ang n k) * Real.cos (ang n (k + 1)) ≠ 0 := (mul_pos c1 c2).ne'
    apply mul_right_cancel₀ hc
    have l : (1 + 1 + coordinate n k * coordinate n (k + 1)) * (Real.cos (ang n k) * Real.cos (ang n (k + 1)))
        = 2 * (Real.cos (ang n (k + 1)) * Real.cos (ang n k) + Real.sin (ang n (k + 1)) * Real.sin (ang n k)) := by
      linear_combination coordinate n (k + 1) * Real.cos (ang n (k + 1)) * p2 + Real.sqrt 2 * Real.sin (ang n k) * q2
        + Real.sin (ang n k) * Real.sin (ang n (k + 1)) * h2
    have r : S * T * (Real.cos (ang n k) * Real.cos (ang n (k + 1))) = 2 := by
      linear_combination T * Real.cos (ang n (k + 1)) * p1 + Real.sqrt 2 * q1 + h2
    rw [l, mul_assoc, r]; ring
  rcases h with ⟨h1, h2⟩ | ⟨h1, h2⟩ | ⟨h1, h2⟩ <;> rw [h1, h2] <;> unfold cubePoint <;> rw [project_eq, project_eq] <;>
    dsimp only <;> rw [sa, sb, ← key] <;> simp only [inner3, Matrix.cons_val_zero, Matrix.cons_val_one, Matrix.cons_val]
  · rw [div_mul_div_comm, div_mul_div_comm, div_mul_div_comm, sa, sb, ← add_div, ← add_div]
  · rw [div_mul_div_comm, div_mul_div_comm, div_mul_div_comm, sa, sb, ← add_div, ← add_div,
      show 1 + coordinate n k * coordinate n k + 1 = 1 + 1 + coordinate n k * coordinate n k by ring,
      show 1 + coordinate n (k + 1) * coordinate n (k + 1) + 1 = 1 + 1 + coordinate n (k + 1) * coordinate n (k + 1) by ring,
      show 1 + coordinate n k * coordinate n (k + 1) + 1 = 1 + 1 + coordinate n k * coordinate n (k + 1) by ring]
  · rw [div_mul_div_comm, div_mul_div_comm, div_mul_div_comm, sa, sb, ← add_div, ← add_div,
      show coordinate n k * coordinate n k + 1 + 1 = 1 + 1 + coordinate n k * coordinate n k by ring,
      show coordinate n (k + 1) * coordinate n (k + 1) + 1 + 1 = 1 + 1 + coordinate n (k + 1) * coordinate n (k + 1) by ring,
      show coordinate n k * coordinate n (k + 1) + 1 + 1 = 1 + 1 + coordinate n k * coordinate n (k + 1) by ring]

/-- The middle of the third tile of a grid with two cells in a row is the north pole. -/
example : spherePoint (consistent 2 (corners (1 / 10) 6371000 false 2) (2 * (2 + 1) * (2 + 1) + 1 * (2 + 1) + 1)) = ![0, 0, 1] := by
  rw [C83_corners (1 / 10) 6371000 2 2 1 1 (by norm_num) (by norm_num) (by norm_num) (by norm_num) (by norm_num)
    (by norm_num) (by norm_num)]
  have h0 : coordinate 2 1 = 0 := coordinate_mid (n := 2) (by norm_num) (by norm_num)
  have h1 : coordinate 2 2 = 1 := coordinate_last (by norm_num)
  unfold cubePoint place
  simp only [show 2 - 1 = 1 from rfl, h0, h1, project_eq]
  funext k
  fin_cases k <;> simp

/-- The west edge of the first tile has corners at equal distances. -/
example : inner3 (spherePoint (consistent 4 (corners (1 / 10) 6371000 false 4) (0 * (4 + 1) * (4 + 1) + 2 * (4 + 1) + 0)))
    (spherePoint (consistent 4 (corners (1 / 10) 6371000 false 4) (0 * (4 + 1) * (4 + 1) + 3 * (4 + 1) + 0)))
    = Real.cos (2 * halfEdge / (4 : Nat)) :=
  C83_equal_edges (1 / 10) 6371000 4 0 2 0 0 3 0 (by norm_num) (by norm_num) (by norm_num) (by norm_num) (by norm_num)
    (by norm_num) (by norm_num) (by norm_num) (by norm_num) (by norm_num) 4 0 2 (Or.inr rfl) (Or.inl rfl) (by norm_num)
    (Or.inl ⟨rfl, rfl⟩)

end Verif.Gnomonic
