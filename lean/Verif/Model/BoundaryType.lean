import Verif.Model.Contact
import Verif.Model.MosaicContact
import Verif.Model.Provenance
/-
Boundary conditions of a mosaic of one tile: /repo/lib/libfrencutils/tool_util.c `get_boundary_type` 686-770 for VERSION_2, with the mosaic as make_solo_mosaic writes it for one tile
(/repo/src/make-solo-mosaic/make_solo_mosaic.c 218-246, 275-337).

Simplifications: of the file the tile names and the contacts are kept; messages, and the attributes of VERSION_1 grids are left out. Callers: make_topog.c 755, check_mask.c 398.
-/
namespace Verif.BoundaryType
open Contact MosaicContact
open Provenance (Err Word)

/-- The mosaic file: names of the tiles, and the rows of `contacts` and `contact_index` if these fields exist. -/
structure Mosaic where
  gridtiles : List Word
  contacts : Option (List (Word × Word))

/-- The numbers of a contact as written, 332-334. -/
def toIx (p : Part × Part) : Ix := ⟨p.1.is, p.1.ie, p.1.js, p.1.je, p.2.is, p.2.ie, p.2.js, p.2.je⟩

/-- 327-337: `sprintf` into `str[STRING]`. -/
def rows (mosaic tile : Word) : List (Part × Part) → Except Err (List (Word × Word))
  | [] => .ok []
  | p :: ps =>
    match row (contactString mosaic tile tile), row (indexString (toIx p)) with
    | some a, some b =>
      match rows mosaic tile ps with
      | .error e => .error e
      | .ok l => .ok ((a, b) :: l)
    | _, _ => .error .undefined

section
variable {K : Type*} [Field K] [LinearOrder K] [IsStrictOrderedRing K]

/-- The mosaic of one tile: 218-246 with `n = m = 0`; overlaps are looked for between different tiles only (250-251). The fields exist if there are contacts (289, 299). At most
MAXCONTACT contacts (100) are allowed, here there are at most three. -/
def solo (mosaic tile : Word) (t : Tile K) (periodx periody : K) : Except Err Mosaic :=
  match rows mosaic tile (alignContact true t t periodx periody) with
  | .error e => .error e
  | .ok [] => .ok ⟨[tile], none⟩
  | .ok l => .ok ⟨[tile], some l⟩
end

/-- `cyclic_x`, `cyclic_y`, `is_tripolar` -/
structure Boundary where
  cyclicX : Bool
  cyclicY : Bool
  tripolar : Bool
  deriving DecidableEq

/-- 722-739: one contact, in model cells as `read_mosaic_contact` gives them. -/
def contact (b : Boundary) (x : Ix) : Except Err Boundary :=
  if x.is1 = x.ie1 then
    if x.is2 ≠ x.ie2 then .error .refused else .ok { b with cyclicX := true }
  else if x.js1 = x.je1 then
    if x.js2 ≠ x.je2 then .error .refused
    else if x.js1 = x.js2 then .ok { b with tripolar := true } else .ok { b with cyclicY := true }
  else .error .refused

def contacts : Boundary → List Ix → Except Err Boundary
  | b, [] => .ok b
  | b, x :: xs =>
    match contact b x with
    | .error e => .error e
    | .ok b' => contacts b' xs

/-- `read_mosaic_contact` for all rows -/
def readAll (gridtiles : List Word) : List (Word × Word) → Except Err (List Ix)
  | [] => .ok []
  | r :: rs =>
    match readContact gridtiles r.1 r.2 with
    | .error _ => .error .refused
    | .ok c =>
      match readAll gridtiles rs with
      | .error e => .error e
      | .ok l => .ok (c.ix :: l)

/-- 686-741 -/
def boundaryType (f : Mosaic) : Except Err Boundary :=
  if f.gridtiles.length ≠ 1 then .error .refused
  else match f.contacts with
    | none => .ok ⟨false, false, false⟩
    | some l =>
      if l.length < 1 ∨ 2 < l.length then .error .refused
      else match readAll f.gridtiles l with
        | .error e => .error e
        | .ok xs => contacts ⟨false, false, false⟩ xs

end Verif.BoundaryType
