import Verif.Model.CouplerTile
/-
Model of two steps of make_coupler_mosaic before the exchange grid is computed: the row that may be added to the
ocean grid in the south, and the search for a nested atmosphere tile.

Source: /repo/src/make-coupler-mosaic/make_coupler_mosaic.c: added row 852-891, ocean mask 945-971, output of the
ocean indices 2327-2333 (the same in 2899 and 3515), ocean mask file 2054-2068, `get_nest_contact` 292-351.

Simplifications: numbers belong to an ordered field, `d2r` is the factor from degrees to radians and `tiny` is
`TINY_VALUE`; arrays are functions on the index `j*nx+i`; a remainder by zero, which C leaves undefined, is the
outcome `undefined`.
-/
namespace Verif.CouplerGrid

variable {K : Type} [Field K] [LinearOrder K]

/-- `ocn_south_ext` (856-874): only the first point of the southern row is looked at. -/
def southExt (d2r tiny : K) (ntiles : Nat) (y : Nat → K) : Nat :=
  if ntiles = 1 then (if y 0 * d2r > -90 * d2r + tiny then 1 else 0) else 0

/-- `yocn` (881-891) at index `l`. -/
def latOcn (d2r : K) (ext nx : Nat) (y : Nat → K) (l : Nat) : K :=
  if ext = 1 ∧ l < nx + 1 then -90 * d2r else y (l - ext * (nx + 1)) * d2r

/-- `xocn` (881-891) at index `l`. -/
def lonOcn (d2r : K) (ext nx : Nat) (x : Nat → K) (l : Nat) : K :=
  if ext = 1 ∧ l < nx + 1 then x l * d2r else x (l - ext * (nx + 1)) * d2r

/-- `omask` (955-971) at index `l`: `area_frac` of the file, in the added row 0. -/
def maskOcn (ext nx ny : Nat) (areaFrac : Nat → K) (l : Nat) : K :=
  if ext * nx ≤ l ∧ l < ext * nx + nx * ny then areaFrac (l - ext * nx) else 0

/-- `omask` when the file has no `area_frac` (964-971). -/
def maskDepth (ext nx ny : Nat) (depth : Nat → K) (seaLevel : K) (l : Nat) : K :=
  if ext * nx ≤ l ∧ l < ext * nx + nx * ny then (if depth (l - ext * nx) > seaLevel then 1 else 0) else 0

/-- The indices written for ocean cell `(io, jo)` (2331-2332); `int` arithmetic. -/
def writtenIndex (ext : Nat) (c : Nat × Nat) : Int × Int := ((c.1 : Int) + 1, (c.2 : Int) + (1 - ext))

/-! ### Nested tile -/

/-- A contact of the atmosphere mosaic. -/
structure Contact where
  tile1 : Nat
  tile2 : Nat
  is1 : Int
  ie1 : Int
  js1 : Int
  je1 : Int
  is2 : Int
  ie2 : Int
  js2 : Int
  je2 : Int
  deriving DecidableEq

/-- What `get_nest_contact` returns for a nest. -/
structure Nest where
  tile : Nat
  is : Int
  ie : Int
  js : Int
  je : Int
  tileP : Nat
  isP : Int
  ieP : Int
  jsP : Int
  jeP : Int
  deriving DecidableEq

/-- Why the search ends early. -/
inductive Stop | noRefinement | twoNests | notInteger | undefined
  deriving DecidableEq

/-- The remainder `a % b` of C is not zero: `none` if it is undefined. -/
def remNonzero (a b : Int) : Option Bool := if b = 0 then none else some (decide (a.tmod b ≠ 0))

/-- `a1%b1 || a2%b2` with C's order of evaluation. -/
def notMultiple (a1 b1 a2 b2 : Int) : Option Bool :=
  match remNonzero a1 b1 with
  | none => none
  | some true => some true
  | some false => remNonzero a2 b2

/-- One round of the loop of `get_nest_contact` (305-346); tile sizes by tile number less 1. -/
def nestStep (nx ny : Nat → Int) (s : Option Nest) (c : Contact) : Except Stop (Option Nest) :=
  if c.tile1 = c.tile2 then .ok s
  else
    let nx1 := c.ie1 - c.is1 + 1
    let ny1 := c.je1 - c.js1 + 1
    let nx2 := c.ie2 - c.is2 + 1
    let ny2 := c.je2 - c.js2 + 1
    let t1 := c.tile1 - 1
    let t2 := c.tile2 - 1
    if (nx t1 ≠ nx1 ∨ ny t1 ≠ ny1) ∧ (nx t2 ≠ nx2 ∨ ny t2 ≠ ny2) then .ok s
    else if nx1 = nx2 ∧ ny1 = ny2 then .error .noRefinement
    else if s.isSome then .error .twoNests
    else if nx2 * ny2 > nx1 * ny1 then
      match notMultiple nx2 nx1 ny2 ny1 with
      | none => .error .undefined
      | some true => .error .notInteger
      | some false => .ok (some ⟨t2, c.is2, c.ie2, c.js2, c.je2, t1, c.is1, c.ie1, c.js1, c.je1⟩)
    else
      match notMultiple nx1 nx2 ny1 ny2 with
      | none => .error .undefined
      | some true => .error .notInteger
      | some false => .ok (some ⟨t1, c.is1, c.ie1, c.js1, c.je1, t2, c.is2, c.ie2, c.js2, c.je2⟩)

/-- `get_nest_contact`. -/
def getNest (nx ny : Nat → Int) (cs : List Contact) : Except Stop (Option Nest) :=
  cs.foldlM (nestStep nx ny) none

end Verif.CouplerGrid
