import Verif.Model.TransferMosaic
import Verif.Spec.MosaicContact
/-
What `transfer_to_mosaic_grid` has to write. A supergrid has two by two cells for each cell of the ocean grid; its points are
`(r, c)` with `r ≤ 2 ny`, `c ≤ 2 nx`. Cell `(j, i)` of the ocean has its centre at `(2j+1, 2i+1)`, its corners at
`(2j, 2i)`, `(2j, 2i+2)`, `(2j+2, 2i+2)`, `(2j+2, 2i)`.
-/
namespace Verif.Spec.TransferMosaic
open Verif.TransferMosaic Verif.MosaicContact

/-- Row `r`, column `c` of a variable with `w` columns. -/
def val {F : Type} (w : Nat) (a : Mem F) (r c : Nat) : Option F := a (r * w + c)

/-- A coordinate on the supergrid: points of the four kinds from their variables, the south side from the vertices of the
first row, the west side from the east side (moved by `west`). -/
structure Points {F : Type} [Field F] (ny nx : Nat) (t e n c : Fld F) (v : Nat → Fld F) (west : F → F)
    (p : Nat → Nat → Option F) : Prop where
  centre : ∀ j i, j < ny → i < nx → p (2 * j + 1) (2 * i + 1) = some (t j i)
  east : ∀ j i, j < ny → i < nx → p (2 * j + 1) (2 * i + 2) = some (e j i)
  north : ∀ j i, j < ny → i < nx → p (2 * j + 2) (2 * i + 1) = some (n j i)
  corner : ∀ j i, j < ny → i < nx → p (2 * j + 2) (2 * i + 2) = some (c j i)
  south : ∀ i, i < nx → p 0 (2 * i + 1) = some ((v 0 0 i + v 1 0 i) / 2)
  southCorner : ∀ i, i < nx → p 0 (2 * i + 2) = some (v 1 0 i)
  first : p 0 0 = some (v 0 0 0)
  westSide : ∀ r, 1 ≤ r → r ≤ 2 * ny → ∃ u, p r (2 * nx) = some u ∧ p r 0 = some (west u)

/-- The vertices of the cells fit together: neighbours share corners. Vertex 0 is south-west, 1 south-east, 2 north-east,
3 north-west; `c` is the north-east corner. -/
structure Joined {F : Type} (ny nx : Nat) (c : Fld F) (v : Nat → Fld F) : Prop where
  ne : ∀ j i, j < ny → i < nx → v 2 j i = c j i
  se : ∀ j i, j + 1 < ny → i < nx → v 1 (j + 1) i = c j i
  nw : ∀ j i, j < ny → i + 1 < nx → v 3 j (i + 1) = c j i
  sw : ∀ j i, j < ny → i + 1 < nx → v 0 j (i + 1) = v 1 j i
  west : ∀ j, j + 1 < ny → v 0 (j + 1) 0 = v 3 j 0

/-- The grid goes once around: its west side is its east side, moved by `west`. -/
def Around {F : Type} (ny nx : Nat) (c : Fld F) (v : Nat → Fld F) (west : F → F) : Prop :=
  ∀ j, j < ny → v 3 j 0 = west (c j (nx - 1))

/-- The four corners of cell `(j, i)` in the supergrid are its vertices in the old file. -/
def Corners {F : Type} (v : Nat → Fld F) (p : Nat → Nat → Option F) (j i : Nat) : Prop :=
  p (2 * j) (2 * i) = some (v 0 j i) ∧ p (2 * j) (2 * i + 2) = some (v 1 j i) ∧
  p (2 * j + 2) (2 * i + 2) = some (v 2 j i) ∧ p (2 * j + 2) (2 * i) = some (v 3 j i)

/-- The variable read for a point kind: the first name if it is in the file, else the second. -/
def Given {α : Type} (first second : Option α) (p : α) : Prop := first = some p ∨ (first = none ∧ second = some p)

/-- The lengths of the sides of the supergrid cells: along x (`dx`, `2 ny + 1` rows of `2 nx`) and along y (`dy`, `2 ny` rows
of `2 nx + 1`). -/
structure Lengths {F : Type} [Field F] (o : Old F) (dx dy : Nat → Nat → Option F) : Prop where
  midWest : ∀ j i, j < o.ny → i < o.nx → dx (2 * j + 1) (2 * i) = some (o.ds_01_11_T j i)
  midEast : ∀ j i, j < o.ny → i < o.nx → dx (2 * j + 1) (2 * i + 1) = some (o.ds_11_21_T j i)
  northEast : ∀ j i, j < o.ny → i < o.nx → dx (2 * j + 2) (2 * i + 1) = some (o.ds_01_11_C j i)
  northWest : ∀ j i, j < o.ny → i + 1 < o.nx → dx (2 * j + 2) (2 * i + 2) = some (o.ds_11_21_C j i)
  northFirst : ∀ j, j < o.ny → dx (2 * j + 2) 0 = some (o.ds_02_22_T j 0 - o.ds_01_11_C j 0)
  southWest : ∀ i d, i < o.nx → o.ds_00_10_T = some d → dx 0 (2 * i) = some (d 0 i)
  southEast : ∀ i d, i < o.nx → o.ds_10_20_T = some d → dx 0 (2 * i + 1) = some (d 0 i)
  southNone : ∀ i, i < o.nx → (o.ds_00_10_T = none → dx 0 (2 * i) = some 0) ∧ (o.ds_10_20_T = none → dx 0 (2 * i + 1) = some 0)
  midSouth : ∀ j i, j < o.ny → i < o.nx → dy (2 * j) (2 * i + 1) = some (o.ds_10_11_T j i)
  midNorth : ∀ j i, j < o.ny → i < o.nx → dy (2 * j + 1) (2 * i + 1) = some (o.ds_11_12_T j i)
  eastSouth : ∀ j i d, j < o.ny → i < o.nx → o.ds_20_21_T = some d → dy (2 * j) (2 * i + 2) = some (d j i)
  eastNorth : ∀ j i d, j < o.ny → i < o.nx → o.ds_21_22_T = some d → dy (2 * j + 1) (2 * i + 2) = some (d j i)
  westSide : ∀ r, r < 2 * o.ny → dy r 0 = dy r (2 * o.nx)

/-- The distances of the old file fit together: the two halves of the north and east sides of a cell add up to the side. -/
structure Halves {F : Type} [Field F] (o : Old F) : Prop where
  north : ∀ j i, j < o.ny → i + 1 < o.nx → o.ds_11_21_C j i + o.ds_01_11_C j (i + 1) = o.ds_02_22_T j (i + 1)
  east : ∀ j i, j + 1 < o.ny → i < o.nx → o.ds_11_12_C j i + o.ds_10_11_C (j + 1) i = o.ds_20_22_T (j + 1) i

/-- The contact of a grid that is cyclic along x, `nx` by `ny` cells. -/
def cyclicX (nx ny : Nat) : Ix := superIx ⟨.line (nx - 1) true, .up 0 (ny - 1)⟩ ⟨.line 0 false, .up 0 (ny - 1)⟩

/-- The contact of a grid whose north side is folded in the middle, `2 h` by `ny` cells: column `i` meets `2 h - 1 - i`. -/
def foldNorth (h ny : Nat) : Ix :=
  superIx ⟨.up 0 (h - 1), .line (ny - 1) true⟩ ⟨.down (2 * h - 1) h, .line (ny - 1) true⟩

end Verif.Spec.TransferMosaic
