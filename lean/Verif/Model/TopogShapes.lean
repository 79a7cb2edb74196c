import Verif.Model.Domain2D
import Mathlib.Analysis.SpecialFunctions.Exp
/-
make_topog with shapes given by formulas: /repo/src/make-topog/topog.c `create_rectangular_topog` 60-65, `create_bowl_topog` 73-98, `create_gaussian_topog` 105-157,
`create_box_channel_topog` 1057-1076; /repo/src/make-topog/make_topog.c 635-645 (checks of the box channel), 763-822 (the arrays of a process and the calls).

Simplifications: numbers are real; a division by 0 in `create_gaussian_topog` is taken as in IEEE arithmetic, with comparisons with NaN false; indices in `int` do not overflow.
-/
namespace Verif.TopogShapes

/-- The program stops with a message; or it uses memory outside an array. -/
inductive Err
  | refused
  | undefined
  deriving DecidableEq

/-- Corners of the grid cells as in the arrays `x` and `y`: column `i`, row `j`. -/
structure Grid where
  x : Nat → Nat → ℝ
  y : Nat → Nat → ℝ

/-- Mean of the four corners (86-87, 119-120). -/
noncomputable def centre (f : Nat → Nat → ℝ) (i j : Nat) : ℝ := (f i j + f (i + 1) j + f i (j + 1) + f (i + 1) (j + 1)) * (1 / 4)

/-- A depth for every cell. -/
abbrev Field := Nat → Nat → ℝ

/-! ### Rectangular basin -/

/-- 60-65 -/
noncomputable def rectangular (basin : ℝ) : Field := fun _ _ => basin

/-! ### Bowl -/

structure Bowl where
  bottom : ℝ
  minDepth : ℝ
  east : ℝ
  south : ℝ
  west : ℝ
  north : ℝ

/-- 88-94 for one cell -/
noncomputable def bowlAt (o : Bowl) (xx yy : ℝ) : ℝ :=
  if xx ≤ o.west ∨ o.east ≤ xx ∨ yy ≤ o.south ∨ o.north ≤ yy then o.minDepth
  else o.minDepth + o.bottom * (1 - Real.exp (-((yy - o.south) / 2) ^ 2)) * (1 - Real.exp (-((yy - o.north) / 2) ^ 2)) *
    (1 - Real.exp (-((xx - o.west) / 4) ^ 2)) * (1 - Real.exp (-((xx - o.east) / 4) ^ 2))

/-- 73-98 -/
noncomputable def bowl (o : Bowl) (g : Grid) : Field := fun i j => bowlAt o (centre g.x i j) (centre g.y i j)

/-! ### Gaussian bump -/

structure Gauss where
  bottom : ℝ
  minDepth : ℝ
  amp : ℝ
  scale : ℝ
  slopeX : ℝ
  slopeY : ℝ

/-- The cells of the loops 129-134: not those of the first row and of the first column. -/
def inner (nx ny : Nat) : List (Nat × Nat) :=
  (List.range (ny - 1)).flatMap fun j => (List.range (nx - 1)).map fun i => (i + 1, j + 1)

/-- 124-134: least and largest value over these cells and the first one. -/
noncomputable def least (nx ny : Nat) (f : Nat → Nat → ℝ) : ℝ := (inner nx ny).foldl (fun m c => min (f c.1 c.2) m) (f 0 0)
noncomputable def largest (nx ny : Nat) (f : Nat → Nat → ℝ) : ℝ := (inner nx ny).foldl (fun m c => max (f c.1 c.2) m) (f 0 0)

/-- `exp(-arg/pow(bump_scale,2))` (149) with `arg ≥ 0`; `none` is NaN. -/
noncomputable def bump (arg width : ℝ) : Option ℝ :=
  if width = 0 then (if arg = 0 then none else some 0) else some (Real.exp (-arg / width ^ 2))

/-- 148-151 for one cell; `max(bottom,min_depth)` is `min_depth` for a NaN. -/
noncomputable def gaussAt (o : Gauss) (width xcent ycent xw ys xx yy : ℝ) : ℝ :=
  match bump ((xx - xcent) ^ 2 + (yy - ycent) ^ 2) width with
  | none => o.minDepth
  | some e => max (o.bottom - o.amp * o.bottom * e - o.slopeX * (xx - xw) - o.slopeY * (yy - ys)) o.minDepth

/-- 105-157 -/
noncomputable def gaussian (o : Gauss) (nx ny : Nat) (g : Grid) : Field := fun i j =>
  let xt := centre g.x
  let yt := centre g.y
  let xw := least nx ny xt
  let xe := largest nx ny xt
  let ys := least nx ny yt
  let yn := largest nx ny yt
  gaussAt o (o.scale * min (xe - xw) (yn - ys)) (1 / 2 * (xe + xw)) (1 / 2 * (yn + ys)) xw ys (xt i j) (yt i j)

/-! ### Box channel -/

structure Channel where
  basin : ℝ
  westSouth : Int
  westNorth : Int
  eastSouth : Int
  eastNorth : Int

/-- Numbers from `a` to `b - 1`. -/
def from_to (a b : Int) : List Int := (List.range (b - a).toNat).map fun k : Nat => a + (k : Int)

/-- The elements of `depth` that are set to 0 (1064-1074). -/
def closed (o : Channel) (nx ny : Nat) : List Int :=
  ((List.range nx).flatMap fun i : Nat => [(i : Int), ((ny : Int) - 1) * (nx : Int) + (i : Int)]) ++
  (from_to 0 o.westSouth).map (fun j : Int => j * (nx : Int)) ++ (from_to o.westNorth ny).map (fun j : Int => j * (nx : Int)) ++
  (from_to 0 o.eastSouth).map (fun j : Int => j * (nx : Int) + (nx : Int) - 1) ++ (from_to o.eastNorth ny).map (fun j : Int => j * (nx : Int) + (nx : Int) - 1)

/-- The checks in make_topog.c 637-642 and then 1057-1076. -/
noncomputable def channel (o : Channel) (nx ny : Nat) : Except Err Field :=
  if o.westSouth ≤ 0 ∨ o.westNorth ≤ 0 ∨ o.eastSouth ≤ 0 ∨ o.eastNorth ≤ 0 then .error .refused
  else if o.westSouth > o.westNorth ∨ o.eastSouth > o.eastNorth then .error .refused
  else if (closed o nx ny).any (fun k => decide (k < 0) || decide ((nx : Int) * ny ≤ k)) then .error .undefined
  else .ok fun i j => if (j : Int) * nx + i ∈ closed o nx ny then 0 else o.basin

/-! ### The call by a process -/

inductive Shape
  | rectangular (basin : ℝ)
  | bowl (o : Bowl)
  | gaussian (o : Gauss)
  | channel (o : Channel)

/-- The routine for the whole grid. -/
noncomputable def whole (s : Shape) (nx ny : Nat) (g : Grid) : Except Err Field :=
  match s with
  | .rectangular b => .ok (rectangular b)
  | .bowl o => .ok (bowl o g)
  | .gaussian o => .ok (gaussian o nx ny g)
  | .channel o => channel o nx ny

/-- Number of points of a process in one direction (769). -/
def points (b e : Int) : Nat := (e - b + 1).toNat

/-- 763-822: a process has arrays for its part of the grid, the routines are called with the size of the whole grid, `nx[n]` and `ny[n]`, and write that many elements. -/
noncomputable def call (s : Shape) (nx ny : Nat) (g : Grid) (pe : Int × Int × Int × Int) : Except Err Field :=
  if points pe.1 pe.2.1 * points pe.2.2.1 pe.2.2.2 < nx * ny then .error .undefined else whole s nx ny g

end Verif.TopogShapes
