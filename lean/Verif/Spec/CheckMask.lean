import Verif.Model.CheckMask
/-
Specification for `check_mask`.
-/
namespace Verif.Spec
open Verif.CheckMask
variable {K : Type*} [Field K] [LinearOrder K] [IsStrictOrderedRing K]

/-- The grid point that is met at column `x` and row `y` when the grid is left across a side: beyond the northern side
of a tripolar grid the rows come back in the opposite direction, a cyclic grid repeats, and beyond other sides there is
nothing. -/
def Basin.pointAt (b : Basin K) (x y : Int) : Option (Int × Int) :=
  let col (x y : Int) : Option (Int × Int) :=
    if 0 ≤ x ∧ x < b.nx then some (x, y) else if b.cyclicX then some (x % b.nx, y) else none
  if 0 ≤ y ∧ y < b.ny then col x y
  else if b.tripolar ∧ y ≥ b.ny then col (b.nx - 1 - x) (2 * b.ny - 1 - y)
  else if b.cyclicY then col x (y % b.ny)
  else none

/-- There is ocean at column `x` and row `y`. -/
def Basin.OceanAt (b : Basin K) (x y : Int) : Prop :=
  ∃ p, Basin.pointAt b x y = some p ∧ b.wet p.1.toNat p.2.toNat > 1 / 2

/-- A processor with the extents `x` and `y` has no ocean within `halo` points. -/
def Basin.Dry (b : Basin K) (halo : Nat) (x y : Int × Int) : Prop :=
  ∀ i j : Int, x.1 - halo ≤ i → i ≤ x.2 + halo → y.1 - halo ≤ j → j ≤ y.2 + halo → ¬Basin.OceanAt b i j

/-! ### Cube -/

/-- The surface of a cube with `n` cells along each edge. The six faces as in the mosaics of the cubed sphere: the
point in column `a` and row `b` (from 0 to `n`) of face `t`. -/
def cubePoint (n : Nat) (t a b : Nat) : Nat × Nat × Nat :=
  match t with
  | 0 => (n, a, b)
  | 1 => (n - a, n, b)
  | 2 => (n - a, n - b, n)
  | 3 => (0, n - b, n - a)
  | 4 => (b, 0, n - a)
  | _ => (b, a, 0)

/-- A cell of the cube: face, column and row (from 1 to `n`). -/
structure CubeCell where
  face : Nat
  i : Nat
  j : Nat
deriving DecidableEq

def CubeCell.Valid (n : Nat) (c : CubeCell) : Prop := c.face < 6 ∧ 1 ≤ c.i ∧ c.i ≤ n ∧ 1 ≤ c.j ∧ c.j ≤ n

/-- `p` is a corner of the cell. -/
def CubeCell.Corner (n : Nat) (c : CubeCell) (p : Nat × Nat × Nat) : Prop :=
  ∃ a b, (a = c.i - 1 ∨ a = c.i) ∧ (b = c.j - 1 ∨ b = c.j) ∧ p = cubePoint n c.face a b

inductive CubeSide
  | west | east | south | north

/-- The place in the halo next to cell `k` of a side: column and row. -/
def CubeSide.haloPlace (n : Nat) : CubeSide → Nat → Nat × Nat
  | .west, k => (0, k)
  | .east, k => (n + 1, k)
  | .south, k => (k, 0)
  | .north, k => (k, n + 1)

/-- The cell `k` of a side. -/
def CubeSide.cell (n : Nat) (t : Nat) : CubeSide → Nat → CubeCell
  | .west, k => ⟨t, 1, k⟩
  | .east, k => ⟨t, n, k⟩
  | .south, k => ⟨t, k, 1⟩
  | .north, k => ⟨t, k, n⟩

/-- The two ends of the edge of cell `k` on the side. -/
def CubeSide.edge (n : Nat) (t : Nat) : CubeSide → Nat → (Nat × Nat × Nat) × (Nat × Nat × Nat)
  | .west, k => (cubePoint n t 0 (k - 1), cubePoint n t 0 k)
  | .east, k => (cubePoint n t n (k - 1), cubePoint n t n k)
  | .south, k => (cubePoint n t (k - 1) 0, cubePoint n t k 0)
  | .north, k => (cubePoint n t (k - 1) n, cubePoint n t k n)

/-- There is land at column `i` and row `j` of face `t` (from 1 to `n`; 0 and `n + 1` is the cell across the side). -/
def LandAt (n : Nat) (a : Nat → Nat → Nat → K) (t i j : Nat) : Prop :=
  (1 ≤ i ∧ i ≤ n ∧ 1 ≤ j ∧ j ≤ n ∧ a t (i - 1) (j - 1) > 0) ∨
    ∃ (s : CubeSide) (k : Nat) (c : CubeCell), 1 ≤ k ∧ k ≤ n ∧ (i, j) = s.haloPlace n k ∧ c.Valid n ∧ c.face ≠ t ∧
      c.Corner n (s.edge n t k).1 ∧ c.Corner n (s.edge n t k).2 ∧ a c.face (c.i - 1) (c.j - 1) > 0

end Verif.Spec
