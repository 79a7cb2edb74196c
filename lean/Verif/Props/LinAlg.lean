import Verif.Model.Vec3
import Verif.Spec.Vec3
import Mathlib.LinearAlgebra.Matrix.NonsingularInverse
import Mathlib.Tactic.FieldSimp
import Mathlib.Tactic.LinearCombination
import Mathlib.Tactic.FinCases
import Mathlib.Tactic.NormNum
/-
C34: inversion of a matrix and the intersection of a line with a plane.
-/
namespace Verif.Vec3
open Verif.Spec

variable {K : Type} [Field K] [LinearOrder K]

omit [LinearOrder K] in
theorem det3_eq (m : M K) : det3 m = (asMatrix m).det := by
  rw [Matrix.det_fin_three]
  simp only [asMatrix, det3]
  simp
  ring

omit [LinearOrder K] in
theorem mult_eq (m : M K) (v : V K) : mult m v = (asMatrix m).mulVec v := by
  funext i
  fin_cases i <;> simp [mult, asMatrix, Matrix.mulVec, dotProduct, Fin.sum_univ_three]

variable [IsStrictOrderedRing K]

/-- C34. `invert_matrix_3x3` refuses exactly the matrices with a determinant below the threshold, and what it returns
otherwise is the inverse from both sides. -/
theorem C34_invert (eps : K) (heps : 0 < eps) (m : M K) :
    (invert3 eps m = none ↔ |(asMatrix m).det| < eps) ∧
    ∀ r, invert3 eps m = some r → asMatrix m * asMatrix r = 1 ∧ asMatrix r * asMatrix m = 1 := by
  rw [← det3_eq]
  refine ⟨?_, fun r h => ?_⟩
  · unfold invert3; split <;> simp_all
  · unfold invert3 at h
    split at h
    · exact absurd h (by simp)
    · rename_i hd
      have hd0 : det3 m ≠ 0 := by
        intro e; rw [e, abs_zero] at hd; exact hd heps
      have key : asMatrix m * asMatrix r = 1 := by
        simp only [Option.some.injEq] at h
        subst h
        have hdi : det3 m * (1 / det3 m) = 1 := mul_one_div_cancel hd0
        generalize 1 / det3 m = d at hdi ⊢
        unfold det3 at hdi
        ext i j
        fin_cases i <;> fin_cases j <;>
          simp [Matrix.mul_apply, Fin.sum_univ_three, asMatrix, Matrix.one_apply] <;>
          first
            | linear_combination hdi
            | ring
      exact ⟨key, mul_eq_one_comm.1 key⟩

example : invert3 (1 / 1000 : ℚ) ![2, 0, 0, 0, 4, 0, 1, 0, 1] = some ![1 / 2, 0, 0, 0, 1 / 4, 0, -(1 / 2), 0, 1] := by
  simp [invert3, det3]
  norm_num

/-- C34. When `intersect_tri_with_line` succeeds, the point at parameter `t` of the line is the point with coordinates
`p` of the plane, and there is no other such point; it refuses exactly if the determinant of the directions of the
line and the plane is below the threshold. -/
theorem C34_line_plane (eps : K) (heps : 0 < eps) (p0 p1 p2 l1 l2 : V K) :
    (∀ t a b, intersectTri eps p0 p1 p2 l1 l2 = some (t, a, b) →
      ∀ t' a' b', (l1 + t' • (l2 - l1) = p0 + a' • (p1 - p0) + b' • (p2 - p0) ↔ t' = t ∧ a' = a ∧ b' = b)) ∧
    (intersectTri eps p0 p1 p2 l1 l2 = none ↔ |volume3 (l1 - l2) (p1 - p0) (p2 - p0)| < eps) := by
  obtain ⟨h1, h2⟩ := C34_invert eps heps (triMatrix p0 p1 p2 l1 l2)
  constructor
  · intro t a b h t' a' b'
    unfold intersectTri at h
    split at h
    · exact absurd h (by simp)
    · rename_i r hr
      obtain ⟨k1, k2⟩ := h2 r hr
      simp only [Option.some.injEq, Prod.mk.injEq] at h
      obtain ⟨e1, e2, e3⟩ := h
      have ex : mult r ![l1 0 - p0 0, l1 1 - p0 1, l1 2 - p0 2] = ![t, a, b] := by
        funext i; fin_cases i
        · exact e1
        · exact e2
        · exact e3
      rw [mult_eq] at ex
      have lin : (l1 + t' • (l2 - l1) = p0 + a' • (p1 - p0) + b' • (p2 - p0)) ↔
          (asMatrix (triMatrix p0 p1 p2 l1 l2)).mulVec ![t', a', b'] = ![l1 0 - p0 0, l1 1 - p0 1, l1 2 - p0 2] := by
        constructor
        · intro h
          have g0 := congrFun h 0
          have g1 := congrFun h 1
          have g2 := congrFun h 2
          simp at g0 g1 g2
          funext i
          fin_cases i <;> simp [Matrix.mulVec, dotProduct, Fin.sum_univ_three, asMatrix, triMatrix]
          · linear_combination -g0
          · linear_combination -g1
          · linear_combination -g2
        · intro h
          have g0 := congrFun h 0
          have g1 := congrFun h 1
          have g2 := congrFun h 2
          simp [Matrix.mulVec, dotProduct, Fin.sum_univ_three, asMatrix, triMatrix] at g0 g1 g2
          funext i
          fin_cases i <;> simp
          · linear_combination -g0
          · linear_combination -g1
          · linear_combination -g2
      rw [lin]
      constructor
      · intro h
        rw [← h, Matrix.mulVec_mulVec, k2, Matrix.one_mulVec] at ex
        exact ⟨congrFun ex 0, congrFun ex 1, congrFun ex 2⟩
      · rintro ⟨rfl, rfl, rfl⟩
        rw [← ex, Matrix.mulVec_mulVec, k1, Matrix.one_mulVec]
  · have hv : (asMatrix (triMatrix p0 p1 p2 l1 l2)).det = volume3 (l1 - l2) (p1 - p0) (p2 - p0) := by
      rw [← det3_eq]; simp [det3, triMatrix, volume3]; ring
    rw [← hv, ← h1]
    unfold intersectTri
    split <;> simp_all

/-- The line from (0,0,1) to (0,0,-1) meets the plane through (1,0,0), (0,1,0), (-1,0,0) in the middle. -/
example : intersectTri (1 / 1000 : ℚ) ![1, 0, 0] ![0, 1, 0] ![-1, 0, 0] ![0, 0, 1] ![0, 0, -1] =
    some (1 / 2, 0, 1 / 2) := by
  have h : invert3 (1 / 1000 : ℚ) (triMatrix ![1, 0, 0] ![0, 1, 0] ![-1, 0, 0] ![0, 0, 1] ![0, 0, -1]) =
      some ![0, 0, 1 / 2, 0, 1, 0, -(1 / 2), -(1 / 2), 0] := by
    simp [invert3, det3, triMatrix]
    norm_num
  unfold intersectTri
  rw [h]
  simp [mult]

end Verif.Vec3
