import Mathlib.Data.Nat.Notation
/-
The surface of a cube made of six square tiles.
-/
namespace Verif.Spec.Cube

/-- Place of the point in row `j` and column `i` of tile `t` (counted from 0) on the surface of the cube with corners
`(0, 0, 0)` and `(n, n, n)`. Tiles 0, 1 and 2 are the faces where the first, the second and the third coordinate is `n`;
tiles 3, 4 and 5 are the faces opposite to them. Rows and columns of a tile run from 0 to `n`. -/
def place (n t j i : ℕ) : ℕ × ℕ × ℕ :=
  match t with
  | 0 => (n, i, j)
  | 1 => (n - i, n, j)
  | 2 => (n - i, n - j, n)
  | 3 => (0, n - j, n - i)
  | 4 => (j, 0, n - i)
  | _ => (j, i, 0)

/-- A side of a cell of tile `t`: from the point in row `j` and column `i` to the next one in the same row or in the same
column. -/
structure Side where
  t : ℕ
  j : ℕ
  i : ℕ
  along : Bool

/-- The side lies on the tile; `along` means that it runs along a row. -/
def Side.valid (n : ℕ) (s : Side) : Prop :=
  s.t < 6 ∧ if s.along then s.j ≤ n ∧ s.i < n else s.j < n ∧ s.i ≤ n

/-- Place of its first end -/
def Side.first (n : ℕ) (s : Side) : ℕ × ℕ × ℕ := place n s.t s.j s.i

/-- Place of its other end -/
def Side.second (n : ℕ) (s : Side) : ℕ × ℕ × ℕ :=
  if s.along then place n s.t s.j (s.i + 1) else place n s.t (s.j + 1) s.i

/-- Two sides are the same piece of the surface. -/
def Side.same (n : ℕ) (s s' : Side) : Prop :=
  (s.first n = s'.first n ∧ s.second n = s'.second n) ∨ (s.first n = s'.second n ∧ s.second n = s'.first n)

end Verif.Spec.Cube
