import Mathlib.Data.Real.Basic
/-
make_topog with `--topog_type dome`: /repo/src/make-topog/topog.c `create_dome_topog` 1100-1189, `deg2metre` 33; /repo/src/make-topog/make_topog.c 782-800 (centres of the
cells), 833-836 (the call).

Simplifications: numbers are real; the printed notes (1146-1159) are left out; grids have at least one cell; one process (for several see C140).
-/
namespace Verif.DomeTopog

/-- A value for column `i` and row `j`. -/
abbrev Cells := Nat → Nat → ℝ

/-- Options of the program. -/
structure Dome where
  slope : ℝ
  bottom : ℝ
  west : ℝ
  east : ℝ
  south : ℝ
  depth : ℝ

/-- topog.c 33 -/
noncomputable def deg2metre : ℝ := 111324

/-- make_topog.c 784-785 and 796-797: the centre of a cell is every second point of the supergrid, from the second one on. -/
def centres (super : Cells) : Cells := fun i j => super (2 * i + 1) (2 * j + 1)

/-- 1128-1133, 1142-1144: `if(a[i] <= v && a[i+1] >= v) v = a[i]` for `i = 0, .., n-2`. -/
noncomputable def snap (a : Nat → ℝ) (n : Nat) (v : ℝ) : ℝ :=
  (List.range (n - 1)).foldl (fun v i => if a i ≤ v ∧ v ≤ a (i + 1) then a i else v) v

/-- 1110-1120: the largest latitude of the grid, as a fold over the cells. -/
noncomputable def north (nx ny : Nat) (y : Cells) : ℝ :=
  (List.range (nx * ny)).foldl (fun m k => max (y (k % nx) (k / nx)) m) (y 0 0)

/-- The edges after 1144. -/
structure Edges where
  xw : ℝ
  xe : ℝ
  ys : ℝ
  yn : ℝ
  top : ℝ
  foot : ℝ

/-- 1110-1144. Columns are looked up in the first row, rows in the first column. -/
noncomputable def edges (o : Dome) (nx ny : Nat) (x y : Cells) : Edges :=
  let ys := snap (fun j => y 0 j) ny o.south
  { xw := snap (fun i => x i 0) nx o.west
    xe := snap (fun i => x i 0) nx o.east
    ys := ys
    yn := north nx ny y
    top := ys
    foot := snap (fun j => y 0 j) ny (ys - (o.bottom - o.depth) / (o.slope * deg2metre)) }

/-- 1162 -/
def flat (o : Dome) : Cells := fun _ _ => o.bottom

/-- 1165-1170 -/
noncomputable def sloping (o : Dome) (e : Edges) (y d : Cells) : Cells := fun i j =>
  if e.foot ≤ y i j ∧ y i j < e.top then o.bottom - o.slope * deg2metre * (y i j - e.foot) else d i j

/-- 1173-1175 -/
noncomputable def shelf (e : Edges) (y d : Cells) : Cells := fun i j => if e.top ≤ y i j then 0 else d i j

/-- 1178-1182 -/
noncomputable def embayment (o : Dome) (e : Edges) (x y d : Cells) : Cells := fun i j =>
  if e.xw ≤ x i j ∧ x i j ≤ e.xe ∧ e.ys ≤ y i j ∧ y i j ≤ e.yn then o.depth else d i j

/-- 1100-1189 -/
noncomputable def dome (o : Dome) (nx ny : Nat) (x y : Cells) : Cells :=
  let e := edges o nx ny x y
  embayment o e x y (shelf e y (sloping o e y (flat o)))

/-- make_topog.c 782-836 for one process: the depths from the supergrid. -/
noncomputable def domeOfSuper (o : Dome) (nx ny : Nat) (sx sy : Cells) : Cells := dome o nx ny (centres sx) (centres sy)

end Verif.DomeTopog
