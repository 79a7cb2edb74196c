import Mathlib.LinearAlgebra.Matrix.Determinant.Basic
import Mathlib.Analysis.SpecialFunctions.Trigonometric.Basic
/-
Specification for the vector utilities.
-/
namespace Verif.Spec

/-- Nine numbers, row by row, as a matrix. -/
def asMatrix {K : Type} (m : Fin 9 → K) : Matrix (Fin 3) (Fin 3) K :=
  fun i j => m ⟨3 * i.1 + j.1, by have := i.2; have := j.2; omega⟩

/-- Inner product. -/
def inner3 {K : Type} [Field K] (p q : Fin 3 → K) : K := p 0 * q 0 + p 1 * q 1 + p 2 * q 2

/-- Signed volume: positive if the three vectors are in right-handed order. -/
def volume3 {K : Type} [Field K] (p q r : Fin 3 → K) : K :=
  p 0 * (q 1 * r 2 - q 2 * r 1) - p 1 * (q 0 * r 2 - q 2 * r 0) + p 2 * (q 0 * r 1 - q 1 * r 0)

/-- Square of the distance. -/
def dist2 {K : Type} [Field K] (p q : Fin 3 → K) : K := inner3 (p - q) (p - q)

/-- `p` is on the unit sphere. -/
def OnSphere (p : Fin 3 → ℝ) : Prop := inner3 p p = 1

/-- `p` lies on the shorter great circle arc between `a` and `b`. -/
def OnArc (a b p : Fin 3 → ℝ) : Prop :=
  OnSphere p ∧ ∃ s t : ℝ, 0 ≤ s ∧ 0 ≤ t ∧ p = s • a + t • b

/-- The point of the unit sphere with the given longitude and latitude. -/
noncomputable def spherePoint (p : ℝ × ℝ) : Fin 3 → ℝ :=
  ![Real.cos p.2 * Real.cos p.1, Real.cos p.2 * Real.sin p.1, Real.sin p.2]

end Verif.Spec
