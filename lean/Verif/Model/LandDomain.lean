import Mathlib.Algebra.Order.Field.Basic
import Verif.Model.CString
/-
Model of src/make-land-domain/make_land_domain.c. Cells of a face are numbered `j * nx + i`. Areas are elements of an
ordered field. A restart file is the list of its values `tile_index`; an exchange grid file is its name and the list of its
records. An access outside an array, a division by zero and the use of an uninitialised string are the outcome `undefined`.
-/
namespace Verif.LandDomain

open Verif.CString

/-- A record of an exchange grid: column and row of the land cell counted from 0, and the area as a part of the sphere
(`i2`, `j2`, `area` of `read_mosaic_xgrid_order1`, make_land_domain.c l.185-190) -/
structure Rec (K : Type) where
  i2 : Nat
  j2 : Nat
  area : K

/-- What the program reads: l.119-138 (faces and their size), l.153-157 (name of the mosaic and number of files), l.172-191
(exchange grids), l.222-240 (restart files, one for each face) -/
structure Input (K : Type) where
  nfaces : Nat
  nx : Nat
  ny : Nat
  mosaic : List Char
  files : List (List Char × List (Rec K))
  restarts : Nat → List Int

/-- The three variables of the output file, l.310-312 -/
structure Output where
  nlandFace : List Nat
  gridIndex : List Nat
  gridNtile : List Nat
deriving DecidableEq, Repr

inductive Err
  | negative
  | maskOnly
  | tileOnly
  | undefined
deriving DecidableEq, Repr

/-- `face_name`, l.168: `sprintf(face_name, "%s_tile%d", mosaic_name, face+1)` -/
def faceName (mosaic : List Char) (face : Nat) : List Char := mosaic ++ "_tile".toList ++ digits (face + 1)

/-- One addition to an array with a check of the index, l.191 -/
def addAt {K : Type} [Add K] (size k : Nat) (x : K) (a : Nat → K) : Except Err (Nat → K) :=
  if k < size then .ok fun n => if n = k then a n + x else a n else .error .undefined

/-- `land_area` of a face, l.169-199: the sum over all files whose name contains the name of the face. The constant
`4*M_PI*RADIUS*RADIUS` is `sphere`. -/
def landArea {K : Type} [Field K] (sphere : K) (inp : Input K) (face : Nat) : Except Err (Nat → K) :=
  inp.files.foldlM (init := fun _ => 0) fun a file =>
    if strstr file.1 (faceName inp.mosaic face) then
      file.2.foldlM (init := a) fun a r => addAt (inp.nx * inp.ny) (r.j2 * inp.nx + r.i2) (r.area * sphere) a
    else .ok a

/-- `land_mask`, l.200-206 -/
def landMask {K : Type} [Field K] [LinearOrder K] (sphere : K) (inp : Input K) (face : Nat) : Except Err (Nat → Bool) :=
  (landArea sphere inp face).map fun a n => decide (0 < a n)

/-- `land_ntile` of a face, l.222-245. With one face l.227 copies the uninitialised string `land_restart_file` over the
argument, which has no meaning. `idx[n]%npts` with `npts` zero has none either. -/
def landNtile {K : Type} (inp : Input K) (face : Nat) : Except Err (Nat → Nat) :=
  if inp.nfaces = 1 then .error .undefined else
  (inp.restarts face).foldlM (init := fun _ => 0) fun a idx =>
    if idx < 0 then .error .negative
    else if inp.nx * inp.ny = 0 then .error .undefined
    else .ok fun n => if n = idx.toNat % (inp.nx * inp.ny) then a n + 1 else a n

/-- The comparison of mask and number of tiles, l.249-256 -/
def check (npts : Nat) (mask : Nat → Bool) (ntile : Nat → Nat) : Except Err Unit :=
  (List.range npts).forM fun n =>
    if mask n && ntile n == 0 then .error .maskOnly
    else if !mask n && decide (0 < ntile n) then .error .tileOnly
    else .ok ()

/-- The packing of one face, l.271-279: index and number of tiles of each land point in order -/
def packFace (npts : Nat) (mask : Nat → Bool) (ntile : Nat → Nat) : List (Nat × Nat) :=
  (List.range npts).filterMap fun n => if mask n then some (n, ntile n) else none

/-- The program. The arrays `grid_index` and `grid_ntile` have `nlands` elements and are filled one after the other, l.259-281;
since `nlands` is the number of land points of all faces (l.203-204), this is the list of all of them. -/
def run {K : Type} [Field K] [LinearOrder K] (sphere : K) (inp : Input K) : Except Err Output := do
  let masks ← (List.range inp.nfaces).mapM (landMask sphere inp)
  let ntiles ← (List.range inp.nfaces).mapM (landNtile inp)
  (masks.zip ntiles).forM fun mt => check (inp.nx * inp.ny) mt.1 mt.2
  let packed := (masks.zip ntiles).flatMap fun mt => packFace (inp.nx * inp.ny) mt.1 mt.2
  return { nlandFace := masks.map fun m => (List.range (inp.nx * inp.ny)).countP m
           gridIndex := packed.map Prod.fst
           gridNtile := packed.map Prod.snd }

end Verif.LandDomain
