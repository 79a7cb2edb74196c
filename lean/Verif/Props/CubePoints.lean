import Verif.Props.Schmidt
import Verif.Props.Gnomonic
/-
C82, C83, C84: points of the supergrid between corners, the great circle distance, and the choice of the transformation.
-/
namespace Verif.CubeGrid

open Verif.Vec3 Verif.Spec Verif.Spec.Cube

theorem onSphere_project {v : V ℝ} (h : v ≠ 0) : OnSphere (project v) := by
  have hp : 0 < inner3 v v := by
    rcases lt_or_eq_of_le (show 0 ≤ inner3 v v by
      unfold inner3; nlinarith [mul_self_nonneg (v 0), mul_self_nonneg (v 1), mul_self_nonneg (v 2)]) with h0 | h0
    · exact h0
    · exfalso
      apply h
      unfold inner3 at h0
      have a := mul_self_nonneg (v 0)
      have b := mul_self_nonneg (v 1)
      have c := mul_self_nonneg (v 2)
      have e0 : v 0 = 0 := mul_self_eq_zero.1 (by linarith)
      have e1 : v 1 = 0 := mul_self_eq_zero.1 (by linarith)
      have e2 : v 2 = 0 := mul_self_eq_zero.1 (by linarith)
      funext k
      fin_cases k
      exacts [e0, e1, e2]
  have hs := Real.mul_self_sqrt hp.le
  have hq := Real.sqrt_pos.2 hp
  have hne := mul_ne_zero hq.ne' hq.ne'
  unfold OnSphere
  have e : inner3 (project v) (project v) = inner3 v v / (Real.sqrt (inner3 v v) * Real.sqrt (inner3 v v)) := by
    conv_lhs => unfold inner3
    unfold project
    rw [div_mul_div_comm, div_mul_div_comm, div_mul_div_comm, ← add_div, ← add_div]
    rfl
  rw [e, hs, div_self hp.ne']

theorem lonLatOf_project (eps10 : ℝ) (v : V ℝ) : lonLatOf eps10 v = toLonLat eps10 (project v) := by
  unfold lonLatOf
  dsimp only
  congr 1
  have e : v 0 ^ 2 + v 1 ^ 2 + v 2 ^ 2 = inner3 v v := by unfold inner3; ring
  rw [e]
  funext k
  fin_cases k <;> rfl

theorem lonLatOf_near (eps10 : ℝ) (he : 0 < eps10) {v : V ℝ} (h : v ≠ 0) :
    dist2 (spherePoint (lonLatOf eps10 v)) (project v) < (2 * eps10) ^ 2 ∧
    (eps10 ≤ |project v 0| + |project v 1| → spherePoint (lonLatOf eps10 v) = project v) := by
  rw [lonLatOf_project]
  have hs := onSphere_project h
  have hx : eps10 ≤ |project v 0| + |project v 1| → spherePoint (toLonLat eps10 (project v)) = project v :=
    fun hp => (C35_lonlat eps10 he _ hs hp).1
  refine ⟨?_, hx⟩
  by_cases hp : |project v 0| + |project v 1| < eps10
  · exact C35_lonlat_pole eps10 _ hs hp
  · rw [hx (not_lt.1 hp)]
    simp [dist2, inner3]
    positivity

/-- The points of the supergrid between corners: a point in an odd column of an even row, or in an even column of an odd row, is
the middle of the great circle arc between the two corners beside it; a point in an odd column of an odd row is the centre of
the four corners around it, their mean projected to the sphere. Up to twice the threshold, because next to a pole longitudes are set to 0. The
corners may be any whose sum is not zero. -/
theorem C83_between (p : Par) (he : 0 < p.eps10) (a : Nat → LonLat) (t : Nat) :
    let g := fun j i => spherePoint (grid p a t j i)
    (∀ j i : Nat, g (2 * j) (2 * i) + g (2 * j) (2 * i + 2) ≠ 0 →
      dist2 (g (2 * j) (2 * i + 1)) (project (g (2 * j) (2 * i) + g (2 * j) (2 * i + 2))) < (2 * p.eps10) ^ 2) ∧
    (∀ j i : Nat, g (2 * j) (2 * i) + g (2 * j + 2) (2 * i) ≠ 0 →
      dist2 (g (2 * j + 1) (2 * i)) (project (g (2 * j) (2 * i) + g (2 * j + 2) (2 * i))) < (2 * p.eps10) ^ 2) ∧
    (∀ j i : Nat, g (2 * j) (2 * i) + g (2 * j) (2 * i + 2) + g (2 * j + 2) (2 * i + 2) + g (2 * j + 2) (2 * i) ≠ 0 →
      dist2 (g (2 * j + 1) (2 * i + 1)) (project (g (2 * j) (2 * i) + g (2 * j) (2 * i + 2) + g (2 * j + 2) (2 * i + 2)
        + g (2 * j + 2) (2 * i))) < (2 * p.eps10) ^ 2) := by
  intro g
  have h0 : ∀ k : Nat, 2 * k % 2 = 0 := fun k => by omega
  have h1 : ∀ k : Nat, (2 * k + 1) % 2 = 1 := fun k => by omega
  have h2 : ∀ k : Nat, (2 * k + 2) % 2 = 0 := fun k => by omega
  have d0 : ∀ k : Nat, 2 * k / 2 = k := fun k => by omega
  have d1 : ∀ k : Nat, (2 * k + 1) / 2 = k := fun k => by omega
  have d2 : ∀ k : Nat, (2 * k + 2) / 2 = k + 1 := fun k => by omega
  have one : ¬ (1 = 0) := by omega
  refine ⟨fun j i hne => ?_, fun j i hne => ?_, fun j i hne => ?_⟩
  · have e : grid p a t (2 * j) (2 * i + 1) = lonLatOf p.eps10 (g (2 * j) (2 * i) + g (2 * j) (2 * i + 2)) := by
      simp only [g, grid, super, superPoint, h0, h1, h2, d0, d1, d2, if_true, one, if_false, midEdge, add_assoc]
      congr 1
      funext k
      fin_cases k <;> rfl
    simp only [g]
    rw [e]
    exact (lonLatOf_near p.eps10 he hne).1
  · have e : grid p a t (2 * j + 1) (2 * i) = lonLatOf p.eps10 (g (2 * j) (2 * i) + g (2 * j + 2) (2 * i)) := by
      simp only [g, grid, super, superPoint, h0, h1, h2, d0, d1, d2, if_true, one, if_false, midEdge, add_assoc]
      congr 1
      funext k
      fin_cases k <;> rfl
    simp only [g]
    rw [e]
    exact (lonLatOf_near p.eps10 he hne).1
  · have e : grid p a t (2 * j + 1) (2 * i + 1) = lonLatOf p.eps10 (g (2 * j) (2 * i) + g (2 * j) (2 * i + 2)
        + g (2 * j + 2) (2 * i + 2) + g (2 * j + 2) (2 * i)) := by
      simp only [g, grid, super, superPoint, h0, h1, h2, d0, d1, d2, if_true, one, if_false, midCell, add_assoc]
      congr 1
      funext k
      fin_cases k <;> simp [xyz, toXyz, spherePoint, add_assoc]
    simp only [g]
    rw [e]
    exact (lonLatOf_near p.eps10 he hne).1

/-- The length between two points is `radius` times the angle, between 0 and π, under which they are seen from the centre of the
sphere. -/
theorem C82_distance (radius : ℝ) (p q : LonLat) :
    ∃ angle, distance radius p q = radius * angle ∧ 0 ≤ angle ∧ angle ≤ Real.pi ∧
      Real.cos angle = inner3 (spherePoint p) (spherePoint q) := by
  set s := Real.sin ((p.2 - q.2) / 2) * Real.sin ((p.2 - q.2) / 2)
    + Real.cos p.2 * Real.cos q.2 * (Real.sin ((p.1 - q.1) / 2) * Real.sin ((p.1 - q.1) / 2)) with hs
  have half : ∀ x : ℝ, Real.sin (x / 2) * Real.sin (x / 2) = (1 - Real.cos x) / 2 := by
    intro x
    have := Real.cos_sq (x / 2)
    have := Real.sin_sq_add_cos_sq (x / 2)
    rw [show 2 * (x / 2) = x by ring] at *
    nlinarith
  have hin : inner3 (spherePoint p) (spherePoint q) = 1 - 2 * s := by
    rw [hs, half, half, Real.cos_sub, Real.cos_sub]
    simp [inner3, spherePoint]
    ring
  have b := onSphere_point p
  have c := onSphere_point q
  unfold OnSphere at b c
  have h1 : -1 ≤ inner3 (spherePoint p) (spherePoint q) := by
    unfold inner3 at b c ⊢
    nlinarith [mul_self_nonneg (spherePoint p 0 + spherePoint q 0), mul_self_nonneg (spherePoint p 1 + spherePoint q 1),
      mul_self_nonneg (spherePoint p 2 + spherePoint q 2)]
  have h2 : inner3 (spherePoint p) (spherePoint q) ≤ 1 := by
    unfold inner3 at b c ⊢
    nlinarith [mul_self_nonneg (spherePoint p 0 - spherePoint q 0), mul_self_nonneg (spherePoint p 1 - spherePoint q 1),
      mul_self_nonneg (spherePoint p 2 - spherePoint q 2)]
  have s0 : 0 ≤ s := by linarith
  have s1 : s ≤ 1 := by linarith
  have r0 := Real.sqrt_nonneg s
  have r1 : Real.sqrt s ≤ 1 := Real.sqrt_le_one.2 s1
  have rr := Real.mul_self_sqrt s0
  refine ⟨2 * Real.arcsin (Real.sqrt s), rfl, ?_, ?_, ?_⟩
  · have := Real.arcsin_nonneg.2 r0
    linarith
  · have := Real.arcsin_le_pi_div_two (Real.sqrt s)
    linarith
  · have e := Real.sin_arcsin (by linarith) r1
    have e2 := Real.sin_sq_add_cos_sq (Real.arcsin (Real.sqrt s))
    rw [Real.cos_two_mul, hin]
    rw [e] at e2
    nlinarith

theorem turn_x (lonP latP : ℝ) : turn lonP latP ![1, 0, 0] = spherePoint (lonP, latP - Real.pi / 2) := by
  funext i
  fin_cases i <;> simp [turn, spherePoint, Real.cos_sub_pi_div_two, Real.sin_sub_pi_div_two]

/-- Half a turn about the axis -/
def halfTurn (v : V ℝ) : V ℝ := ![-v 0, -v 1, v 2]

theorem halfTurn_point (lon lat : ℝ) : spherePoint (lon + Real.pi, lat) = halfTurn (spherePoint (lon, lat)) := by
  funext i
  fin_cases i <;> simp [halfTurn, spherePoint]

/-- The transformation which the options ask for: with `--do_schmidt` and with `--do_cube_transform` the stretched grid is moved by
a rotation which sends the south pole to the target point. With the first the point of the equator at longitude 0 goes a quarter of
a circle to the south from the target, with the second a quarter of a circle to the north. Without an option nothing is moved. -/
theorem C84_options (p : Par) (he : 0 < p.eps7) :
    (p.schmidt = true ∨ p.cube = true → ∃ R : V ℝ → V ℝ, (∀ u v, inner3 (R u) (R v) = inner3 u v) ∧
      (∀ u v w, volume3 (R u) (R v) (R w) = volume3 u v w) ∧ R ![0, 0, -1] = spherePoint (p.lonP, p.latP) ∧
      R ![1, 0, 0] = spherePoint (p.lonP, if p.schmidt then p.latP - Real.pi / 2 else p.latP + Real.pi / 2) ∧
      ∀ q : LonLat, dist2 (spherePoint (transform p q)) (R (spherePoint (q.1, stretchLat p.eps7 p.factor q.2)))
        < 2 * p.eps7) ∧
    (p.schmidt = false → p.cube = false → ∀ q, transform p q = q) := by
  have near : ∀ lon lat, dist2 (spherePoint (rotate p.eps7 p.lonP p.latP lon lat))
      (turn p.lonP p.latP (spherePoint (lon, lat))) < 2 * p.eps7 := by
    intro lon lat
    by_cases h : 1 - |turn p.lonP p.latP (spherePoint (lon, lat)) 2| < p.eps7
    · exact rotate_near _ _ _ _ _ h
    · rw [rotate_far _ _ _ _ _ he h]
      simp [dist2, inner3]
      linarith
  refine ⟨fun h => ?_, fun h1 h2 q => ?_⟩
  · by_cases hs : p.schmidt = true
    · refine ⟨turn p.lonP p.latP, turn_inner _ _, turn_volume _ _, turn_south _ _, ?_, fun q => ?_⟩
      · rw [if_pos hs]; exact turn_x _ _
      · unfold transform
        rw [if_pos hs]
        exact near _ _
    · have hc : p.cube = true := by rcases h with h | h; exacts [absurd h hs, h]
      refine ⟨fun v => turn p.lonP p.latP (halfTurn v), fun u v => ?_, fun u v w => ?_, ?_, ?_, fun q => ?_⟩
      · rw [turn_inner]; simp [inner3, halfTurn]
      · rw [turn_volume]; simp [volume3, halfTurn]; ring
      · rw [← turn_south]; congr 1; funext i; fin_cases i <;> simp [halfTurn]
      · rw [if_neg hs]
        funext i
        fin_cases i <;> simp [turn, halfTurn, spherePoint, Real.cos_add_pi_div_two, Real.sin_add_pi_div_two]
      · unfold transform
        rw [if_neg hs, if_pos hc]
        have := near (q.1 + Real.pi) (stretchLat p.eps7 p.factor q.2)
        rw [halfTurn_point] at this
        exact this
  · unfold transform
    rw [h1, h2]
    simp

/-- A quarter of the equator is a quarter of the circumference. -/
example : ∃ angle, distance 1 (0, 0) (Real.pi / 2, 0) = 1 * angle ∧ Real.cos angle = 0 := by
  obtain ⟨w, h1, -, -, h4⟩ := C82_distance 1 (0, 0) (Real.pi / 2, 0)
  exact ⟨w, h1, by rw [h4]; simp [inner3, spherePoint]⟩

/-- Two corners a quarter of the equator apart satisfy the condition of `C83_between`. -/
example : spherePoint (0, 0) + spherePoint (Real.pi / 2, 0) ≠ 0 := by
  intro h
  have := congrFun h 0
  simp [spherePoint] at this

/-- A transformation of each kind -/
example : ∃ p : Par, 0 < p.eps7 ∧ p.cube = true ∧ p.schmidt = false := ⟨⟨1, 1, 1, false, true, 3, 0, 0⟩, by norm_num, rfl, rfl⟩

end Verif.CubeGrid
