import Verif.Model.Vec3
/-
Model of the bilinear interpolation of fregrid from the cubed sphere to a longitude latitude grid.

Source: /repo/src/fre-grid/bilinear_interp.c: weights of `setup_bilinear_interp` 265-404, `do_vector_bilinear_interp`
475-559, `do_c2l_interp` 562-613, `normalize_great_circle_distance` 909-920, `dist2side` 960-969, `max_weight_index`
972-984, `do_latlon_coarsening` 994-1044, `redu2x` 1052-1155; /repo/lib/libfrencutils/mosaic_util.c `spherical_angle`
800-838; /repo/src/fre-grid/fregrid_util.c `get_output_grid_by_size` 565-641.

Simplifications: numbers are real numbers where angles occur and elements of an ordered field elsewhere; the clamping of
cosines to -1..1 in 823-833 and 909 only concerns rounding, but is kept; one level (`nz` is 1 in all calls); the search
for the cell of an output point (`get_closest_index`) is left out, the cell is given; the number of columns of a fine
grid is even and the number of rows odd, as `get_output_grid_by_size` makes them; arrays of two dimensions are functions
of row and column.
-/
namespace Verif.Bilinear

open Verif.Vec3

noncomputable section

/-! ### Weights -/

/-- `normalize_great_circle_distance` -/
def greatCircle (v1 v2 : V ℝ) : ℝ :=
  let dist := (v1 0 * v2 0 + v1 1 * v2 1 + v1 2 * v2 2)
    / Real.sqrt ((v1 0 * v1 0 + v1 1 * v1 1 + v1 2 * v1 2) * (v2 0 * v2 0 + v2 1 * v2 1 + v2 2 * v2 2))
  Real.arccos (if dist < 0 then -|min 1 (|dist|)| else |min 1 (|dist|)|)

/-- `spherical_angle` -/
def sphericalAngle (eps30 : ℝ) (v1 v2 v3 : V ℝ) : ℝ :=
  let p := cross v1 v2
  let q := cross v1 v3
  let ddd := (p 0 * p 0 + p 1 * p 1 + p 2 * p 2) * (q 0 * q 0 + q 1 * q 1 + q 2 * q 2)
  if ddd ≤ 0 then 0
  else
    let ddd := (p 0 * q 0 + p 1 * q 1 + p 2 * q 2) / Real.sqrt ddd
    let ddd := if |ddd - 1| < eps30 then 1 else ddd
    let ddd := if |ddd + 1| < eps30 then -1 else ddd
    if ddd > 1 ∨ ddd < -1 then (if ddd < 0 then Real.pi else 0) else Real.arccos ddd

/-- `dist2side` -/
def distToSide (eps30 : ℝ) (v1 v2 point : V ℝ) : ℝ :=
  Real.arcsin (Real.sin (greatCircle v1 point) * Real.sin (sphericalAngle eps30 v1 v2 point))

/-- The four weights of one output point, in the order `(ic, jc)`, `(ic, jc+1)`, `(ic+1, jc+1)`, `(ic+1, jc)`, before
they are divided by their sum (268-396). `g i j` is the centre of cell `(i, j)` of the tile with halo, `p` the output
point. -/
def rawWeights (eps30 : ℝ) (nx ny : Nat) (g : Nat → Nat → V ℝ) (ic jc : Nat) (p : V ℝ) : Fin 4 → ℝ :=
  let d := fun a b => distToSide eps30 a b p
  if ic = nx ∧ jc = ny then
    let v1 := g ic jc
    let v2 := g (ic + 1) jc
    let v3 := g ic (jc + 1)
    ![d v2 v3, d v2 v1, 0, d v1 v3]
  else if ic = 0 ∧ jc = ny then
    let v1 := g ic jc
    let v2 := g (ic + 1) jc
    let v3 := g (ic + 1) (jc + 1)
    ![d v3 v2, 0, d v2 v1, d v3 v1]
  else if jc = 0 ∧ ic = nx then
    let v1 := g ic jc
    let v2 := g ic (jc + 1)
    let v3 := g (ic + 1) (jc + 1)
    ![d v2 v3, d v1 v3, d v1 v2, 0]
  else
    let v1 := g ic jc
    let v2 := g (ic + 1) jc
    let v3 := g ic (jc + 1)
    let v4 := g (ic + 1) (jc + 1)
    let d1 := d v1 v3
    let d2 := d v3 v4
    let d3 := d v4 v2
    let d4 := d v2 v1
    ![d2 * d3, d3 * d4, d4 * d1, d1 * d2]

/-- The weights; the weight 0 of a corner is not divided, which makes no difference. -/
def weights (eps30 : ℝ) (nx ny : Nat) (g : Nat → Nat → V ℝ) (ic jc : Nat) (p : V ℝ) : Fin 4 → ℝ :=
  let w := rawWeights eps30 nx ny g ic jc p
  fun m => w m / (w 0 + w 1 + w 2 + w 3)

end

/-! ### Interpolation -/

section interp
variable {K : Type} [Field K] [LinearOrder K]

/-- `d_in` (577-580), in the order of the weights. -/
def dIn (nxd : Nat) (data : Nat → K) (ic jc : Nat) : Fin 4 → K :=
  ![data (jc * nxd + ic), data ((jc + 1) * nxd + ic), data ((jc + 1) * nxd + ic + 1), data (jc * nxd + ic + 1)]

/-- `max_weight_index` with `nvar = 4` -/
def maxWeightIndex (w : Fin 4 → K) : Fin 4 :=
  let s := fun (ind i : Fin 4) => if w i > w ind then i else ind
  s (s (s 0 1) 2) 3

/-- `do_c2l_interp` for one point; `miss` is the missing value, if there is one. -/
def c2l (miss : Option K) (fill : Bool) (w d : Fin 4 → K) : K :=
  match miss with
  | some m =>
    if d 0 = m ∨ d 1 = m ∨ d 2 = m ∨ d 3 = m then (if fill then d (maxWeightIndex w) else m)
    else d 0 * w 0 + d 1 * w 1 + d 2 * w 2 + d 3 * w 3
  | none => d 0 * w 0 + d 1 * w 1 + d 2 * w 2 + d 3 * w 3

/-- One component of the vector at a cell, 509, 519 and 528: missing values are not looked for. -/
def toCartesian (u v : K) (elon elat : V K) : V K := fun n => u * elon n + v * elat n

/-- `do_vector_bilinear_interp` for one output point: values and unit vectors at the four cells, and unit vectors at the
output point. -/
def vectorInterp (miss : Option K) (fill : Bool) (w u v : Fin 4 → K) (elon elat : Fin 4 → V K) (elonOut elatOut : V K) :
    K × K :=
  let x : V K := fun n => c2l miss fill w (fun c => toCartesian (u c) (v c) (elon c) (elat c) n)
  (x 0 * elonOut 0 + x 1 * elonOut 1 + x 2 * elonOut 2, x 0 * elatOut 0 + x 1 * elatOut 1 + x 2 * elatOut 2)

/-! ### Coarsening -/

/-- `cosp` (1065-1067); `c j` is the cosine of the latitude of row `j`. -/
def cosp (nyfin : Nat) (c : Nat → K) (j : Nat) : K := if j = 0 ∨ j + 1 = nyfin then 0 else c j

/-- `acosp` (1068) -/
def acosp (nyfin : Nat) (c : Nat → K) (j : Nat) : K :=
  1 / (cosp nyfin c j + 1 / 2 * (cosp nyfin c (j - 1) + cosp nyfin c (j + 1)))

/-- The column west of column `2*i` (1079, 1082). -/
def west (nxfin i : Nat) : Nat := if i = 0 then nxfin - 1 else 2 * i - 1

/-- `vartmp` after the sweep over columns, 1073-1101. -/
def xSweep (miss : Option K) (nxfin : Nat) (v : Nat → Nat → K) (j i : Nat) : K :=
  let mean := 1 / 4 * (v j (west nxfin i) + 2 * v j (2 * i) + v j (2 * i + 1))
  match miss with
  | some m => if v j (west nxfin i) = m ∨ v j (2 * i) = m ∨ v j (2 * i + 1) = m then m else mean
  | none => mean

/-- `vartmp` after 1118-1122 and 1137-1140. With a missing value the statement is `if (vartmp[n1] /= missvalue) ...`,
which divides. -/
def scaled (miss : Option K) (nxfin nyfin : Nat) (c : Nat → K) (v : Nat → Nat → K) (j i : Nat) : K :=
  let t := xSweep miss nxfin v j i
  match miss with
  | some m => if t / m ≠ 0 then t / m * cosp nyfin c j else t / m
  | none => t * cosp nyfin c j

/-- `redu2x`: value of the coarse grid, which has `(nyfin - 1) / 2 + 1` rows. -/
def redu2x (miss : Option K) (nxfin nyfin : Nat) (c : Nat → K) (v : Nat → Nat → K) (j2 i : Nat) : K :=
  if j2 = 0 then v 0 (2 * i)
  else if j2 = (nyfin - 1) / 2 then v (nyfin - 1) (2 * i)
  else
    let j := 2 * j2
    let t := fun j => scaled miss nxfin nyfin c v j i
    let mean := acosp nyfin c j * (t j + 1 / 2 * (t (j - 1) + t (j + 1)))
    match miss with
    | some m => if t j = m ∨ t (j - 1) = m ∨ t (j + 1) = m then m else mean
    | none => mean

end interp

/-- Cosines of the latitudes 1026-1029 of a grid with `n` rows. -/
noncomputable def regularCos (n j : Nat) : ℝ :=
  Real.cos (if j + 1 = n then Real.pi / 2 else -Real.pi / 2 + j * (Real.pi / ((n : ℝ) - 1)))

/-- `do_latlon_coarsening`: `c` are the cosines of the latitudes given for the first step, later steps take equidistant
latitudes from pole to pole. -/
noncomputable def coarsen (miss : Option ℝ) : Nat → (Nat → ℝ) → Nat → Nat → (Nat → Nat → ℝ) → Nat → Nat → ℝ
  | 0, _, _, _, v => v
  | s + 1, c, nlon, nlat, v =>
    coarsen miss s (regularCos ((nlat - 1) / 2 + 1)) (nlon / 2) ((nlat - 1) / 2 + 1) (redu2x miss nlon nlat c v)

/-- Longitude of column `i` of a grid with `nx` columns (fregrid_util.c 588-589, 621-623). -/
def lonCentre {K : Type} [Field K] (lonBegin lonEnd : K) (nx i : Nat) : K :=
  lonBegin + ((i : K) + 1 / 2) * ((lonEnd - lonBegin) / (nx : K))

end Verif.Bilinear
