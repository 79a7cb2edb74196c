import Mathlib.Analysis.SpecialFunctions.Pow.Complex
import Mathlib.Analysis.SpecialFunctions.Trigonometric.Arctan
import Mathlib.Analysis.SpecialFunctions.Trigonometric.Inverse
import Verif.Model.Loop
/-
Conformal cubic grid of make_hgrid: /repo/src/make-hgrid/create_conformal_cubic_grid.c `create_conformal_cubic_grid` 52-75, `calc_geocoords_centerpole` 82-250,
`conformal_map_coords2xyz` 261-344, `map_xyz2lonlat` 356-383, `rotate_about_xaxis` 394-417, `permutiles` 428-452, `calc_fvgrid` 464-647, `angle_between_vectors` 654-668,
`excess_of_quad` 674-711, `plane_normal` 717-740; /repo/src/make-hgrid/make_hgrid.c 1144-1145 and 1269-1328 (arrays of the tiles).

Simplifications: `double` and `double complex` are real and complex numbers, M_PI is π; an array of rows is a function of row and column; what an array holds before it is written
is a parameter `u` for coordinates, and `none` for lengths and areas. Loops which do not read what they write are given as the new array.
-/
noncomputable section
namespace Verif.ConformalGrid
open Real
open Complex (I)

/-- An array by row and column. -/
abbrev Arr := Nat → Nat → ℝ

def set (a : Arr) (j i : Nat) (v : ℝ) : Arr := fun j' i' => if j' = j ∧ i' = i then v else a j' i'

/-- X, Y, Z -/
structure Point where
  x : ℝ
  y : ℝ
  z : ℝ

/-! ### The map of a square to a face of the sphere -/

/-- 269-299, `A` -/
def coeffs : List ℝ := [1.47713057321600, -0.38183513110512, -0.05573055466344, -0.01895884801823, -0.00791314396396, -0.00486626515498, -0.00329250387158, -0.00235482619663,
  -0.00175869000970, -0.00135682443774, -0.00107458043205, -0.00086946107050, -0.00071604933286, -0.00059869243613, -0.00050696402446, -0.00043418115349,
  -0.00037537743098, -0.00032745130951, -0.00028769063795, -0.00025464473946, -0.00022659577923, -0.00020297175587, -0.00018247947703, -0.00016510295548,
  -0.00014967258633, -0.00013660647356, -0.00012466390509, -0.00011468147908, -0.00010518717478, -0.00009749136078]

/-- 264 -/
def RA : ℝ := √3 - 1

/-- 266 -/
def CB : ℂ := -1 + I

/-- 267 -/
def CC : ℂ := RA * CB / 2

/-- 318-320 -/
def series (z : ℂ) : ℂ := coeffs.foldr (fun (a : ℝ) w => (w + a) * z) 0

/-- 316-322: from the distances `xc`, `yc` to the sides of the square to the plane -/
def toPlane (xc yc : ℝ) : ℂ :=
  let zc := ((xc + I * yc) / 2) ^ (4 : ℂ)
  let w := series zc
  let w := if w ≠ 0 then I ^ ((1 : ℂ) / 3) * (w * I) ^ ((1 : ℂ) / 3) else w
  (w - RA) / (CB + CC * w)

/-- 323-328: from the plane to the sphere -/
def toSphere (w : ℂ) : Point :=
  let h := 2 / (1 + w.re ^ 2 + w.im ^ 2)
  ⟨w.re * h, w.im * h, h - 1⟩

/-- 306-315 -/
def fold (lx ly : ℝ) : Point := if |lx| < |ly| then toSphere (toPlane (1 - |ly|) (1 - |lx|)) else toSphere (toPlane (1 - |lx|) (1 - |ly|))

/-- 331-342 -/
def unfold (lx ly : ℝ) (p : Point) : Point :=
  let q : Point := if |lx| < |ly| then ⟨p.y, p.x, p.z⟩ else p
  let x := if lx < 0 then -q.x else q.x
  let x := if lx = 0 then 0 else x
  let y := if ly < 0 then -q.y else q.y
  let y := if ly = 0 then 0 else y
  ⟨x, y, q.z⟩

/-- `conformal_map_coords2xyz` for one point -/
def mapXyz (lx ly : ℝ) : Point := unfold lx ly (fold lx ly)

/-- `map_xyz2lonlat`, longitude -/
def lonOf (p : Point) : ℝ :=
  let l := if p.x = 0 then π * 0.5 else arctan (p.y / p.x)
  let l := if p.x < 0 ∧ 0 ≤ p.y then l + π else l
  if p.x ≤ 0 ∧ p.y < 0 then l - π else l

/-- `map_xyz2lonlat`, latitude -/
def latOf (p : Point) : ℝ :=
  let req := √(p.x * p.x + p.y * p.y)
  if req = 0 then if p.z = 0 then 0 else π * 0.5 else arctan (p.z / req)

/-- `rotate_about_xaxis` -/
def rotateX (angle : ℝ) (p : Point) : Point :=
  let s := sin angle
  let c := cos angle
  let t : ℝ × ℝ := if c < 1 / 10 ^ 9 then (0, if 0 < s then 1 else -1) else (c, s)
  ⟨p.x, t.1 * p.y - t.2 * p.z, t.2 * p.y + t.1 * p.z⟩

/-- 98-99, 487-488: coordinate of line `i` of a square with `n` cells -/
def coord (n i : Nat) : ℝ := -1 + 2 * (i : ℝ) / (n : ℝ)

/-- 89: `nxh` -/
def half (n : Nat) : Nat := (n + 1 + 1) / 2

/-- 103-108 -/
def pts (n j i : Nat) : Point := mapXyz (coord n i) (coord n j)

/-- 119-124, 171-176: the values of the quadrant are copied to the array -/
def fill (h : Nat) (q u : Arr) : Arr := fun j i => if j < h ∧ i < h then q j i else u j i

/-- 129-133 -/
def symBody (j i : Nat) (s : Arr × Arr) : Arr × Arr :=
  let lat := set s.1 j i (if i < j then 0.5 * (s.1 j i + s.1 i j) else s.1 i j)
  let lon := if π ≤ s.2 j i then set s.2 j i (s.2 j i - 2 * π) else s.2
  (lat, lon)

/-- 127-135 -/
def symLoop (h : Nat) (s : Arr × Arr) : Arr × Arr := forPure (fun j s => forPure (fun i s => symBody j i s) 0 h s) 0 h s

/-- 137-147 -/
def lonStep (h : Nat) (a : Arr) : Arr := fun j i =>
  if j < h ∧ i < h then if i = j then -3 / 4 * π else (a j i - 3 / 2 * π - a i j) * 0.5 else a j i

/-- 152-157, 188-193: columns `nxh` to `nx` of the first `nyh` rows -/
def mirrorCols (n h : Nat) (f : ℝ → ℝ) (a : Arr) : Arr := fun j i => if j < h ∧ h ≤ i then f (a j (n - i)) else a j i

/-- 159-164, 195-200: rows `nyh` to `ny` -/
def mirrorRows (n h : Nat) (f : ℝ → ℝ) (a : Arr) : Arr := fun j i => if h ≤ j then f (a (n - j) i) else a j i

/-- `latP`, `lonP` after 135 -/
def polarQuadrant (n : Nat) (u : Arr) : Arr × Arr :=
  symLoop (half n) (fill (half n) (fun j i => latOf (pts n j i)) u, fill (half n) (fun j i => lonOf (pts n j i)) u)

/-- `latP` -/
def latP (n : Nat) (u : Arr) : Arr := mirrorRows n (half n) id (mirrorCols n (half n) id (polarQuadrant n u).1)

/-- `lonP` -/
def lonP (n : Nat) (u : Arr) : Arr :=
  mirrorRows n (half n) (fun v => -v) (mirrorCols n (half n) (fun v => -π - v) (lonStep (half n) (polarQuadrant n u).2))

/-- 166-168 -/
def turned (n j i : Nat) : Point := rotateX (π / 2) (pts n j i)

/-- `lonE`: 171-200 -/
def lonE (n : Nat) (u : Arr) : Arr :=
  let a := fill (half n) (fun j i => lonOf (turned n j i)) u
  let a : Arr := fun j i => if j < half n ∧ i = 0 then -3 / 4 * π else a j i
  mirrorRows n (half n) id (mirrorCols n (half n) (fun v => -π - v) a)

/-- `latE`: 171-200; 185 reads `latP` after its rows and columns have been set -/
def latE (n : Nat) (u : Arr) : Arr :=
  let a := fill (half n) (fun j i => latOf (turned n j i)) u
  let a : Arr := fun j i => if i < half n then if j = 0 then -latP n u 0 i else if j = half n - 1 then 0 else a j i else a j i
  mirrorRows n (half n) (fun v => -v) (mirrorCols n (half n) id a)

/-- constant.h 41 -/
def R2D : ℝ := 180 / π

/-- 203-245: longitudes of the six tiles, tile, row, column -/
def rawX (n : Nat) (u : Arr) (t j i : Nat) : ℝ :=
  match t with
  | 0 => let v := lonE n u j i * R2D - 90; if v ≤ -180 then v + 360 else v
  | 1 => lonE n u j i * R2D
  | 2 => lonP n u j i * R2D
  | 3 => lonE n u i j * R2D + 90
  | 4 => lonE n u i j * R2D + 180
  | _ => lonP n u (n - i) (n - j) * R2D

/-- 203-245: latitudes -/
def rawY (n : Nat) (u : Arr) (t j i : Nat) : ℝ :=
  match t with
  | 0 => latE n u j i * R2D
  | 1 => latE n u j i * R2D
  | 2 => latP n u j i * R2D
  | 3 => latE n u (n - i) j * R2D
  | 4 => latE n u (n - i) j * R2D
  | _ => -latP n u j i * R2D

/-- 436-447: one turn of `permutiles`, `ni = nj = n + 1` -/
def permute (n : Nat) (b : Nat → Arr) (t j i : Nat) : ℝ :=
  match t with
  | 0 => b 1 j i
  | 1 => b 3 i (n - j)
  | 2 => b 2 i (n - j)
  | 3 => b 4 j i
  | 4 => b 0 (n - i) j
  | _ => b 5 (n - i) j

/-- `x` of the grid with `n` times `n` cells in each tile -/
def gridX (n : Nat) (u : Arr) : Nat → Arr := permute n (permute n (rawX n u))

/-- `y` -/
def gridY (n : Nat) (u : Arr) : Nat → Arr := permute n (permute n (rawY n u))

/-! ### Lengths and areas -/

/-- constant.h 24 -/
def RADIUS : ℝ := 6371000

/-- `angle_between_vectors` for one pair -/
def angle (p q : Point) : ℝ :=
  arccos ((p.x * q.x + p.y * q.y + p.z * q.z) / √((p.x ^ 2 + p.y ^ 2 + p.z ^ 2) * (q.x ^ 2 + q.y ^ 2 + q.z ^ 2)))

/-- `plane_normal` for one pair -/
def normal (p q : Point) : Point :=
  let p1 := p.y * q.z - p.z * q.y
  let p2 := p.z * q.x - p.x * q.z
  let p3 := p.x * q.y - p.y * q.x
  let mag := √(p1 ^ 2 + p2 ^ 2 + p3 ^ 2)
  ⟨p1 / mag, p2 / mag, p3 / mag⟩

/-- `excess_of_quad` for one cell -/
def excess (p1 p2 p3 p4 : Point) : ℝ :=
  let a := normal p1 p2
  let b := normal p2 p3
  let c := normal p3 p4
  let d := normal p4 p1
  (π - angle b a) + (π - angle c b) + (π - angle d c) + (π - angle a d) - 2 * π

/-- 502-514: `dxl` of the fine grid with `m` cells -/
def fineDx (m : Nat) : Arr := fun j i => angle (pts m j i) (pts m j (i + 1))

/-- 522-534: `dyl` -/
def fineDy (m : Nat) : Arr := fun j i => angle (pts m j i) (pts m (j + 1) i)

/-- 544-562: `areal` -/
def fineArea (m : Nat) : Arr := fun j i => excess (pts m j i) (pts m j (i + 1)) (pts m (j + 1) (i + 1)) (pts m (j + 1) i)

/-- 569-571, `dxl` with the mean of both directions. 573-575 make `dyl` the same with rows and columns exchanged, so that 587-591 change nothing. -/
def dxl (m : Nat) : Arr := fun j i => (fineDx m j i + fineDy m i j) * 0.5

/-- 577-584, the body -/
def areaBody (j i : Nat) (a : Arr) : Arr :=
  if j < i then set a j i ((a j i + a i j) * 0.5) else if i < j then set a j i (a i j) else a

/-- 577-584, up to `nif-1`; 593-597 change nothing then. -/
def areal (m : Nat) : Arr := forPure (fun j a => forPure (fun i a => areaBody j i a) 0 (half m - 1) a) 0 (half m - 1) (fineArea m)

/-- `for(n=0;n<nratio;n++) ar = ar + f(n)` -/
def addUp (r : Nat) (f : Nat → ℝ) : ℝ := forPure (fun k a => a + f k) 0 r 0

/-- 601-607 -/
def dxQuadrant (n r : Nat) (j i : Nat) : Option ℝ :=
  if j < half n ∧ i < half n - 1 then some (addUp r (fun k => dxl (n * r) (j * r) (i * r + k)) * RADIUS) else none

/-- 609-616 -/
def areaQuadrant (n r : Nat) (j i : Nat) : Option ℝ :=
  if j < half n - 1 ∧ i < half n - 1 then
    some (forPure (fun k a => forPure (fun m a => a + areal (n * r) (j * r + k) (i * r + m)) 0 r a) 0 r 0 * RADIUS * RADIUS)
  else none

/-- 619-623, 631-635: columns `nxh-1` to `nx-1` of the first `rows` rows -/
def mirrorCols' (n rows : Nat) (a : Nat → Nat → Option ℝ) : Nat → Nat → Option ℝ :=
  fun j i => if j < rows ∧ half n - 1 ≤ i then a j (n - 1 - i) else a j i

/-- 625-629: rows `nyh` to `ny` of `dx` -/
def dxTile (n r : Nat) : Nat → Nat → Option ℝ :=
  let a := mirrorCols' n (half n) (dxQuadrant n r)
  fun j i => if half n ≤ j then a (n - j) i else a j i

/-- 637-641: rows `nyh-1` to `ny-1` of `area` -/
def areaTile (n r : Nat) : Nat → Nat → Option ℝ :=
  let a := mirrorCols' n (half n - 1) (areaQuadrant n r)
  fun j i => if half n - 1 ≤ j then a (n - 1 - j) i else a j i

/-- 644-645 -/
def dyTile (n r : Nat) : Nat → Nat → Option ℝ := fun j i => dxTile n r i j

/-- An array for six tiles of `rows` times `cols` numbers in which `calc_fvgrid` has set the first tile only: 601-645 use indices below `rows * cols`. -/
def sixTiles (rows cols : Nat) (a : Nat → Nat → Option ℝ) (k : Nat) : Option ℝ := if k < rows * cols then a (k / cols) (k % cols) else none

/-- What make_hgrid writes as `dx` of tile `t` (counted from 0) in row `j` and column `i`: make_hgrid.c 1272, 1327. `none` is a number that was never set. -/
def writtenDx (n r t j i : Nat) : Option ℝ := sixTiles (n + 1) n (dxTile n r) (t * (n * (n + 1)) + j * n + i)

/-- `dy`: 1273, 1326 -/
def writtenDy (n r t j i : Nat) : Option ℝ := sixTiles n (n + 1) (dyTile n r) (t * ((n + 1) * n) + j * (n + 1) + i)

/-- `area`: 1275, 1328 -/
def writtenArea (n r t j i : Nat) : Option ℝ := sixTiles n n (areaTile n r) (t * (n * n) + j * n + i)

end Verif.ConformalGrid
