import Verif.Model.MosaicContact
import Mathlib.Algebra.Field.Basic
/-
Model of `transfer_to_mosaic_grid`: it takes an old style grid file (one file with the ocean grid and, for coupled models,
the grids of atmosphere and land and the exchange grids) and writes the files of a mosaic.

Source: /repo/src/transfer-mosaic-grid/transfer_to_mosaic.c `main`: ocean supergrid 140-416, atmosphere 493-523, land
577-612, vertical grid 662-678, mosaics 729-1003, exchange grids 1006-1345, `mosaic.nc` 1347-1450.

Simplifications: numbers are elements of a field. A C array is a function from flat indices to optional values; `none` is
memory that was allocated and not written. Reading a variable of the file fills the array. Two coordinates of a point kind
(`x_E`, `y_E`) are present or absent together. The areas (line 414, `get_grid_area`) are not part of this model.
-/
namespace Verif.TransferMosaic
open Verif.MosaicContact

/-- A two-dimensional variable of the file, `v j i`. -/
abbrev Fld (F : Type) := Nat → Nat → F

/-- Memory. -/
abbrev Mem (F : Type) := Nat → Option F

/-- The ocean part of the old file. -/
structure Old (F : Type) where
  nx : Nat
  ny : Nat
  xT : Fld F
  yT : Fld F
  xC : Fld F
  yC : Fld F
  /-- `x_E`, `y_E` -/
  e : Option (Fld F × Fld F)
  /-- `geolon_e`, `geolat_e` -/
  geoE : Option (Fld F × Fld F)
  n : Option (Fld F × Fld F)
  geoN : Option (Fld F × Fld F)
  /-- `x_vert_T`, with the number of the vertex first -/
  xv : Nat → Fld F
  yv : Nat → Fld F
  ds_01_11_C : Fld F
  ds_11_21_C : Fld F
  ds_11_12_C : Fld F
  ds_10_11_C : Fld F
  ds_01_11_T : Fld F
  ds_10_11_T : Fld F
  ds_11_21_T : Fld F
  ds_11_12_T : Fld F
  ds_02_22_T : Fld F
  ds_20_22_T : Fld F
  ds_20_21_T : Option (Fld F)
  ds_21_22_T : Option (Fld F)
  ds_00_10_T : Option (Fld F)
  ds_10_20_T : Option (Fld F)
  angC : Fld F
  angT : Option (Fld F)
  angE : Option (Fld F)
  angN : Option (Fld F)

/-- The arrays of the new grid (lines 297-302). -/
structure Grid (F : Type) where
  x : Mem F
  y : Mem F
  dx : Mem F
  dy : Mem F
  ang : Mem F

def empty {F : Type} : Grid F := ⟨fun _ => none, fun _ => none, fun _ => none, fun _ => none, fun _ => none⟩

/-- `a[k] = v` -/
def put {F : Type} (a : Mem F) (k : Nat) (v : Option F) : Mem F := fun m => if m = k then v else a m

section
variable {F : Type} [Field F]

/-- Reading `x_E`/`geolon_e` (238-247) and `x_N`/`geolon_n` (249-258). -/
def points (first second : Option (Fld F × Fld F)) : Option (Fld F × Fld F) :=
  match first with
  | some p => some p
  | none => second

/-- An optional variable, with `unknown = 0` (160, 261-291). -/
def orUnknown (v : Option (Fld F)) : Fld F := v.getD (fun _ _ => 0)

/-- Body of the loop, 304-390: the coordinates of one cell, `c` for `x` or `y`. -/
def coordCell (nxT : Nat) (t e n c : Fld F) (v : Nat → Fld F) (j i : Nat) (a : Mem F) : Mem F :=
  let nxp := 2 * nxT + 1
  let i2 := 2 * (i + 1)
  let i1 := i2 - 1
  let j2 := 2 * (j + 1)
  let j1 := j2 - 1
  let a := put a (j1 * nxp + i1) (some (t j i))
  let a := put a (j1 * nxp + i2) (some (e j i))
  let a := put a (j2 * nxp + i2) (some (c j i))
  let a := put a (j2 * nxp + i1) (some (n j i))
  let a := if j = 0 then put (put a i1 (some ((v 0 j i + v 1 j i) / 2))) i2 (some (v 1 j i)) else a
  if i = 0 ∧ j = 0 then put a 0 (some (v 0 j i)) else a

/-- The distances along x, 343-346, 375-376, 384. -/
def dxCell (o : Old F) (j i : Nat) (a : Mem F) : Mem F :=
  let nx := 2 * o.nx
  let a := put a ((2 * j + 1) * nx + 2 * i) (some (o.ds_01_11_T j i))
  let a := put a ((2 * j + 1) * nx + (2 * i + 1)) (some (o.ds_11_21_T j i))
  let a := if 0 < i then put a ((2 * j + 2) * nx + 2 * i) (some (o.ds_11_21_C j (i - 1))) else a
  let a := put a ((2 * j + 2) * nx + (2 * i + 1)) (some (o.ds_01_11_C j i))
  let a := if j = 0 then
      put (put a (2 * i) (some (orUnknown o.ds_00_10_T 0 i))) (2 * i + 1) (some (orUnknown o.ds_10_20_T 0 i))
    else a
  if i = 0 then put a ((2 * j + 2) * nx + 2 * i) (some (o.ds_02_22_T j i - o.ds_01_11_C j i)) else a

/-- `ds_10_11_C`, read only if `ds_21_22_T` is not in the file (230-237). -/
def readC10 (o : Old F) (j i : Nat) : Option F :=
  match o.ds_21_22_T with
  | some _ => none
  | none => some (o.ds_10_11_C j i)

/-- `ds_11_12_C`, read only if `ds_20_21_T` is not in the file (222-229). -/
def readC11 (o : Old F) (j i : Nat) : Option F :=
  match o.ds_20_21_T with
  | some _ => none
  | none => some (o.ds_11_12_C j i)

/-- The lower half of the east side of a cell, 350-358. -/
def eastLow (o : Old F) (j i : Nat) : Option F :=
  match o.ds_20_21_T with
  | some d => some (d j i)
  | none => if j = 0 then (readC10 o j i).map (fun c => o.ds_20_22_T j i - c) else readC11 o (j - 1) i

/-- The upper half of the east side of a cell, 359-362. -/
def eastHigh (o : Old F) (j i : Nat) : Option F :=
  match o.ds_21_22_T with
  | some d => some (d j i)
  | none => readC10 o j i

/-- The distances along y, 348-362. -/
def dyCell (o : Old F) (j i : Nat) (a : Mem F) : Mem F :=
  let nxp := 2 * o.nx + 1
  let a := put a (2 * j * nxp + (2 * i + 1)) (some (o.ds_10_11_T j i))
  let a := put a ((2 * j + 1) * nxp + (2 * i + 1)) (some (o.ds_11_12_T j i))
  let a := put a (2 * j * nxp + (2 * i + 2)) (eastLow o j i)
  put a ((2 * j + 1) * nxp + (2 * i + 2)) (eastHigh o j i)

/-- The angles, 364-367, 378-379, 389. -/
def angCell (o : Old F) (j i : Nat) (a : Mem F) : Mem F :=
  let nxp := 2 * o.nx + 1
  let a := put a ((2 * j + 1) * nxp + (2 * i + 1)) (some (orUnknown o.angT j i))
  let a := put a ((2 * j + 1) * nxp + (2 * i + 2)) (some (orUnknown o.angE j i))
  let a := put a ((2 * j + 2) * nxp + (2 * i + 1)) (some (orUnknown o.angN j i))
  let a := put a ((2 * j + 2) * nxp + (2 * i + 2)) (some (o.angC j i))
  let a := if j = 0 then put (put a (2 * i + 1) (some 0)) (2 * i + 2) (some 0) else a
  if i = 0 ∧ j = 0 then put a 0 (some 0) else a

/-- Two loops, `for j < ny` and `for i < nx`. -/
def loop2 {S : Type} (ny nx : Nat) (body : Nat → Nat → S → S) (s : S) : S :=
  (List.range ny).foldl (fun s j => (List.range nx).foldl (fun s i => body j i s) s) s

/-- The loop over the cells, 304-393. -/
def cells (o : Old F) (pe pn : Fld F × Fld F) : Grid F :=
  loop2 o.ny o.nx (fun j i g =>
    { x := coordCell o.nx o.xT pe.1 pn.1 o.xC o.xv j i g.x
      y := coordCell o.nx o.yT pe.2 pn.2 o.yC o.yv j i g.y
      dx := dxCell o j i g.dx
      dy := dyCell o j i g.dy
      ang := angCell o j i g.ang }) empty

/-- "here cyclic boundary condition is assumed, just a quick fix", 395-401: the first column from the last one, for the
rows `from ≤ r < rows`. -/
def wrapColumn (nx from_ rows : Nat) (f : F → F) (a : Mem F) : Mem F :=
  (List.range rows).foldl (fun a r =>
    if r < from_ then a else put a (r * (nx + 1)) ((a (r * (nx + 1) + nx)).map f)) a

/-- The ocean supergrid, 140-401. -/
def ocean (o : Old F) : Except String (Grid F) :=
  match points o.e o.geoE with
  | none => .error "both x_E and geolon_e does not exist in the input file"
  | some pe =>
    match points o.n o.geoN with
    | none => .error "both x_N and geolon_n does not exist in the input file"
    | some pn =>
      let g := cells o pe pn
      .ok { x := wrapColumn (2 * o.nx) 1 (2 * o.ny + 1) (fun v => v - 360) g.x
            y := wrapColumn (2 * o.nx) 1 (2 * o.ny + 1) id g.y
            dx := g.dx
            dy := wrapColumn (2 * o.nx) 0 (2 * o.ny) id g.dy
            ang := wrapColumn (2 * o.nx) 1 (2 * o.ny + 1) id g.ang }

end

/-! ### Grids of atmosphere and land, vertical grid -/

/-- An array of the file read at `i`; beyond its end the program reads memory that is not its own. -/
def at_ {α : Type} (l : List α) (i : Nat) : Option α := l[i]?

/-- `x[2*i] = xb[i]` for `i < nxb`, then `x[2*i+1] = xt[i]` for `i < nxt`: the first row (517) and with a stride the first
column (519-520). -/
def interleave {α : Type} (stride : Nat) (b t : List α) (a : Nat → Option α) : Nat → Option α :=
  let a := (List.range b.length).foldl (fun a i => put a (2 * i * stride) (at_ b i)) a
  (List.range t.length).foldl (fun a i => put a ((2 * i + 1) * stride) (at_ t i)) a

/-- The arrays `x_atmos`, `y_atmos` (513-523) or `x_land`, `y_land` (598-612). -/
def product {α : Type} (xb xt yb yt : List α) : (Nat → Option α) × (Nat → Option α) :=
  let nxp := xb.length + xt.length
  let nyp := yb.length + yt.length
  let x := interleave 1 xb xt (fun _ => none)
  let y := interleave nxp yb yt (fun _ => none)
  let x := (List.range (nyp - 1)).foldl (fun x j => (List.range nxp).foldl (fun x i => put x ((j + 1) * nxp + i) (x i)) x) x
  let y := (List.range (nxp - 1)).foldl (fun y i => (List.range nyp).foldl (fun y j => put y (j * nxp + (i + 1)) (y (j * nxp))) y) y
  (x, y)

/-- The vertical grid `zeta` (675-678): length and values. -/
def vgrid {F : Type} [Field F] (zb zt : List F) : Nat × (Nat → Option F) :=
  let z := put (fun _ => none) 0 (some 0)
  (zb.length + zt.length + 1,
    (List.range zt.length).foldl (fun z i => put (put z (2 * i + 1) (at_ zt i)) (2 * i + 2) (at_ zb i)) z)

/-! ### Contacts -/

/-- The contacts of `ocean_mosaic.nc`, 921-944; the arguments are the two boundary attributes of the file. -/
def oceanContacts (xb yb : String) : List Ix :=
  (if xb = "cyclic" then [⟨360, 360, 1, 180, 1, 1, 1, 180⟩] else []) ++
  (if yb = "fold_north_edge" then [⟨1, 180, 180, 180, 360, 181, 180, 180⟩] else [])

/-- The contacts of `land_mosaic.nc`, 823-842. -/
def landContacts (nxbl nybl : Nat) : List Ix :=
  [⟨(nxbl : Int) - 1, (nxbl : Int) - 1, 1, (nybl : Int) - 1, 1, 1, 1, (nybl : Int) - 1⟩]

/-- The contacts of `atmos_mosaic.nc`, `ncontact = 0` (740). -/
def atmosContacts : List Ix := []

/-! ### Exchange grids -/

/-- One exchange grid of the old file. -/
structure OldX (F : Type) where
  area : List F
  i1 : List Int
  j1 : List Int
  i2 : List Int
  j2 : List Int
  di : List F
  dj : List F

/-- A variable with two columns, row by row; `none` is the fill value of NetCDF. -/
abbrev Two (α : Type) := Nat → Nat → Option α

/-- `mpp_put_var_value_block` with `start = {0, c}` and `nwrite = {n, 1}`. -/
def putColumn {α : Type} (v : Two α) (c : Nat) (d : List α) : Two α := fun n k => if k = c ∧ n < d.length then d[n]? else v n k

/-- One exchange grid file. -/
structure NewX (F : Type) where
  ncells : Nat
  contact : String
  area : List F
  cell1 : Two Int
  cell2 : Two Int
  dist1 : Option (Two F)
  dist2 : Option (Two F)

/-- Lines 1035-1113, 1150-1227, 1264-1341; `none` if the dimension has length 0 and no file is written. `order` is
`interp_order` (135), `c` is `4.0 * PI * RADIUS * RADIUS`. -/
def xgrid {F : Type} [Field F] (c : F) (order : Nat) (a b : String) (o : OldX F) : Option (NewX F) :=
  if 0 < o.area.length then
    let nil : Two Int := fun _ _ => none
    let nild : Two F := fun _ _ => none
    let cell1 := putColumn nil 0 o.i1
    let cell2 := putColumn nil 0 o.i2
    let cell1 := putColumn cell1 1 o.j1
    let cell2 := putColumn cell2 1 o.j2
    some { ncells := o.area.length
           contact := a ++ "_mosaic:tile1::" ++ b ++ "_mosaic:tile1"
           area := o.area.map (fun v => v * c)
           cell1 := cell1
           cell2 := cell2
           dist1 := if order = 2 then some (putColumn (putColumn nild 0 o.di) 1 o.dj) else none
           dist2 := if order = 2 then some nild else none }
  else none

/-- The exchange grid files of a coupled grid by name (1046, 1161, 1275). -/
def xgridFiles {F : Type} [Field F] (c : F) (order : Nat) (axl axo lxo : OldX F) : List (String × NewX F) :=
  ((xgrid c order "atmos" "land" axl).map (fun f => ("atmos_mosaicXland_mosaic.nc", f))).toList ++
  ((xgrid c order "atmos" "ocean" axo).map (fun f => ("atmos_mosaicXocean_mosaic.nc", f))).toList ++
  ((xgrid c order "land" "ocean" lxo).map (fun f => ("land_mosaicXocean_mosaic.nc", f))).toList

/-- The exchange grid files named in `mosaic.nc` (1410-1412, 1441-1448). -/
def mosaicXFiles : List String :=
  ["atmos_mosaicXocean_mosaic.nc", "atmos_mosaicXland_mosaic.nc", "land_mosaicXocean_mosaic.nc"]

end Verif.TransferMosaic
