import Verif.Model.Vec3
import Verif.Model.Bilinear
/-
Model of the six tiles of a cubed sphere grid as make_hgrid creates them.

Source: /repo/src/make-hgrid/create_gnomonic_cubic_grid.c `create_gnomonic_cubic_grid`: copies of edges 351-385,
transformations 387-413, supergrid 484-569, lengths 574-657; `direct_transform` 1215-1264, `cube_transform` 1398-1446,
`cell_center` 2008-2049, `cell_east` 2052-2091, `cell_north` 2094-2133. `create_gnomonic_cubic_grid_GR` has the same
statements.

Simplifications: no nests; the arrays `xc` and `yc` are one array of pairs, because every statement is made for both;
`double` and `long double` are real numbers; thresholds are parameters. `nx` is the size of a tile of the supergrid and
`ni` half of it.
-/
namespace Verif.CubeGrid

open Verif.Vec3

/-! ### Copies between edges -/

/-- An assignment `xc[target] = xc[source]`. -/
structure Copy where
  target : Nat
  source : Nat

/-- 352-357: edges of tile 1 to tiles 2 and 3 -/
def copies1 (ni j : Nat) : List Copy :=
  let nip := ni + 1
  [⟨nip * nip + j * nip, j * nip + ni⟩, ⟨2 * nip * nip + j * nip, ni * nip + ni - j⟩]

/-- 358-367 -/
def copies2 (ni i : Nat) : List Copy :=
  let nip := ni + 1
  [⟨4 * nip * nip + ni * nip + i, (ni - i) * nip⟩, ⟨5 * nip * nip + ni * nip + i, i⟩,
    ⟨2 * nip * nip + i, nip * nip + ni * nip + i⟩, ⟨3 * nip * nip + i, nip * nip + (ni - i) * nip + ni⟩]

/-- 368-375 -/
def copies3 (ni j : Nat) : List Copy :=
  let nip := ni + 1
  [⟨5 * nip * nip + j * nip + ni, nip * nip + ni - j⟩, ⟨3 * nip * nip + j * nip, 2 * nip * nip + j * nip + ni⟩,
    ⟨4 * nip * nip + j * nip, 2 * nip * nip + ni * nip + ni - j⟩]

/-- 376-381 -/
def copies4 (ni i : Nat) : List Copy :=
  let nip := ni + 1
  [⟨4 * nip * nip + i, 3 * nip * nip + ni * nip + i⟩, ⟨5 * nip * nip + i, 3 * nip * nip + (ni - i) * nip + ni⟩]

/-- 382-385 -/
def copies5 (ni j : Nat) : List Copy :=
  let nip := ni + 1
  [⟨5 * nip * nip + j * nip, 4 * nip * nip + j * nip + ni⟩]

/-- All assignments in the order of the program. -/
def edgeCopies (ni : Nat) : List Copy :=
  (List.range (ni + 1)).flatMap (copies1 ni) ++ (List.range (ni + 1)).flatMap (copies2 ni)
    ++ (List.range (ni + 1)).flatMap (copies3 ni) ++ (List.range (ni + 1)).flatMap (copies4 ni)
    ++ (List.range (ni + 1)).flatMap (copies5 ni)

/-- One assignment. -/
def assign {P : Type} (a : Nat → P) (c : Copy) : Nat → P := fun k => if k = c.target then a c.source else a k

/-- `xc`, `yc` after "ensure consistency on the boundary between tiles". -/
def consistent {P : Type} (ni : Nat) (a : Nat → P) : Nat → P := (edgeCopies ni).foldl assign a

/-! ### Supergrid -/

/-- Point `(j, i)` of the supergrid of one tile whose corners are `c`. Each of the four loops 498-564 writes the points of
one parity. `mid2` is the point between two corners, `mid4` the point between four. -/
def superPoint {P : Type} (mid2 : P → P → P) (mid4 : P → P → P → P → P) (ni : Nat) (c : Nat → P) (j i : Nat) : P :=
  let nip := ni + 1
  let p := j / 2 * nip + i / 2
  let q := (j / 2 + 1) * nip + i / 2
  if j % 2 = 0 then (if i % 2 = 0 then c p else mid2 (c p) (c (p + 1)))
  else (if i % 2 = 0 then mid2 (c p) (c q) else mid4 (c p) (c (p + 1)) (c (q + 1)) (c q))

/-- Point `(j, i)` of tile `t` (from 0) of the supergrid: `x`, `y` at `tile_offset_supergrid[t] + j*(2*ni+1) + i`. -/
def super {P : Type} (mid2 : P → P → P) (mid4 : P → P → P → P → P) (ni : Nat) (c : Nat → P) (t j i : Nat) : P :=
  superPoint mid2 mid4 ni (fun k => c (t * (ni + 1) * (ni + 1) + k)) j i

noncomputable section

/-- Longitude and latitude. -/
abbrev LonLat := ℝ × ℝ

/-- `latlon2xyz` -/
def xyz (p : LonLat) : V ℝ := toXyz p.1 p.2

/-- `xyz2latlon` of a vector divided by its length. -/
def lonLatOf (eps10 : ℝ) (v : V ℝ) : LonLat :=
  let dd := Real.sqrt (v 0 ^ 2 + v 1 ^ 2 + v 2 ^ 2)
  toLonLat eps10 ![v 0 / dd, v 1 / dd, v 2 / dd]

/-- One point of `cell_east` and `cell_north`. -/
def midEdge (eps10 : ℝ) (p q : LonLat) : LonLat :=
  lonLatOf eps10 ![xyz p 0 + xyz q 0, xyz p 1 + xyz q 1, xyz p 2 + xyz q 2]

/-- One point of `cell_center`. -/
def midCell (eps10 : ℝ) (p q r s : LonLat) : LonLat :=
  lonLatOf eps10 ![xyz p 0 + xyz q 0 + xyz r 0 + xyz s 0, xyz p 1 + xyz q 1 + xyz r 1 + xyz s 1,
    xyz p 2 + xyz q 2 + xyz r 2 + xyz s 2]

/-! ### Stretching -/

/-- `lat_t`, the latitude after stretching, 1241-1247. -/
def stretchLat (eps7 c lat : ℝ) : ℝ :=
  let c2p1 := 1 + c * c
  let c2m1 := 1 - c * c
  if |c2m1| > eps7 then Real.arcsin ((c2m1 + c2p1 * Real.sin lat) / (c2p1 + c2m1 * Real.sin lat)) else lat

/-- The rotation 1248-1262, which sends the south pole to `(lonP, latP)`. -/
def rotate (eps7 lonP latP lon latT : ℝ) : LonLat :=
  let sinP := Real.sin latP
  let cosP := Real.cos latP
  let sinLat := Real.sin latT
  let cosLat := Real.cos latT
  let sinO := -(sinP * sinLat + cosP * cosLat * Real.cos lon)
  if 1 - |sinO| < eps7 then (0, if sinO < 0 then -(Real.pi / 2) else Real.pi / 2)
  else
    let l := lonP + atan2 (-cosLat * Real.sin lon) (-sinLat * cosP + cosLat * sinP * Real.cos lon)
    (if l < 0 then l + 2 * Real.pi else if l ≥ 2 * Real.pi then l - 2 * Real.pi else l, Real.arcsin sinO)

/-- `direct_transform` at one point -/
def direct (eps7 c lonP latP : ℝ) (p : LonLat) : LonLat := rotate eps7 lonP latP p.1 (stretchLat eps7 c p.2)

/-- `cube_transform` at one point -/
def cubeTransform (eps7 c lonP latP : ℝ) (p : LonLat) : LonLat :=
  rotate eps7 lonP latP (p.1 + Real.pi) (stretchLat eps7 c p.2)

/-- Parameters of the grid. -/
structure Par where
  ni : Nat
  eps10 : ℝ
  eps7 : ℝ
  schmidt : Bool
  cube : Bool
  factor : ℝ
  lonP : ℝ
  latP : ℝ

/-- The transformation chosen, 387-413. -/
def transform (p : Par) (q : LonLat) : LonLat :=
  if p.schmidt then direct p.eps7 p.factor p.lonP p.latP q
  else if p.cube then cubeTransform p.eps7 p.factor p.lonP p.latP q
  else q

/-- The supergrid, from the corners of the six tiles before the copies. -/
def grid (p : Par) (a : Nat → LonLat) (t j i : Nat) : LonLat :=
  super (midEdge p.eps10) (midCell p.eps10) p.ni (fun k => transform p (consistent p.ni a k)) t j i

/-! ### Lengths -/

/-- `great_circle_distance` of two points; /repo/lib/libfrencutils/mosaic_util.c 747-759. -/
def distance (radius : ℝ) (p q : LonLat) : ℝ :=
  radius * (2 * Real.arcsin (Real.sqrt (Real.sin ((p.2 - q.2) / 2) * Real.sin ((p.2 - q.2) / 2)
    + Real.cos p.2 * Real.cos q.2 * (Real.sin ((p.1 - q.1) / 2) * Real.sin ((p.1 - q.1) / 2)))))

end

/-- `dx[k]`, 577-591: `k` is `tile_offset_supergrid_m[t] + j*nx + i`. -/
def dx0 {P L : Type} (dist : P → P → L) (nx : Nat) (g : Nat → Nat → Nat → P) (k : Nat) : L :=
  let t := k / (nx * (nx + 1))
  let r := k % (nx * (nx + 1))
  dist (g t (r / nx) (r % nx)) (g t (r / nx) (r % nx + 1))

/-- `dy[k]` before the copies, 594-613: `k` is `tile_offset_supergrid_m[t] + j*(nx+1) + i`. Without stretching `dy` is `dx`
with rows and columns exchanged. -/
def dy0 {P L : Type} (dist : P → P → L) (stretched : Bool) (nx : Nat) (g : Nat → Nat → Nat → P) (k : Nat) : L :=
  let t := k / (nx * (nx + 1))
  let r := k % (nx * (nx + 1))
  let j := r / (nx + 1)
  let i := r % (nx + 1)
  if stretched then dist (g t j i) (g t (j + 1) i) else dx0 dist nx g (t * nx * (nx + 1) + i * nx + j)

/-- Where `dy` is copied from. -/
inductive Source where
  | dx (k : Nat)
  | dy (k : Nat)

/-- The assignments to `dy` for one `j`, 615-656. -/
def lengthCopies (nx j : Nat) : List (Nat × Source) :=
  let nxp := nx + 1
  [(j * nxp, .dx (4 * nx * nxp + nx * nx + nx - j - 1)),
    (j * nxp + nx, .dy (nxp * nx + j * nxp)),
    (nxp * nx + j * nxp + nx, .dx (3 * nx * nxp + (nx - j - 1))),
    (2 * nxp * nx + j * nxp, .dx (nx * nx + nx - j - 1)),
    (2 * nxp * nx + j * nxp + nx, .dy (3 * nxp * nx + j * nxp)),
    (3 * nxp * nx + j * nxp + nx, .dx (5 * nx * nxp + (nx - j - 1))),
    (4 * nxp * nx + j * nxp, .dx (2 * nx * nxp + nx * nx + nx - j - 1)),
    (4 * nxp * nx + j * nxp + nx, .dy (5 * nxp * nx + j * nxp)),
    (5 * nxp * nx + j * nxp + nx, .dx (nx * nxp + (nx - j - 1)))]

/-- One assignment to `dy`. -/
def assignLength {L : Type} (dx : Nat → L) (dy : Nat → L) (c : Nat × Source) : Nat → L :=
  fun k => if k = c.1 then (match c.2 with | .dx s => dx s | .dy s => dy s) else dy k

/-- `dy` after the copies. -/
def dyFinal {L : Type} (nx : Nat) (dx dy : Nat → L) : Nat → L :=
  ((List.range nx).flatMap (lengthCopies nx)).foldl (assignLength dx) dy

end Verif.CubeGrid
