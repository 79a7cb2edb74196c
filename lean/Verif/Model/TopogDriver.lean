import Verif.Model.Provenance
import Verif.Model.CString
/-
The main program of make_topog up to the first depth: /repo/src/make-topog/make_topog.c 296 (arrays of the options), 393-543 (options), 544-648 (checks), 657-752 (the tiles and
the definitions in the output file).

Simplifications: of the options those are kept which are checked; the tiles are given with the size of the supergrid and the attributes of the grid file; `get_boundary_type`,
printed notes and the text of messages are left out; sizes are positive.
-/
namespace Verif.TopogDriver
open Provenance

/-- Options as given, `none` if not given. -/
structure Options where
  mosaic : Option Word
  type : Option Word
  output : Option Word
  xRefine : Int
  yRefine : Int
  vgrid : Option Word
  topogFile : Option Word
  topogField : Option Word
  jwestSouth : Int
  jwestNorth : Int
  jeastSouth : Int
  jeastNorth : Int

/-- 278-287 -/
inductive Kind
  | rectangular
  | gaussian
  | bowl
  | idealized
  | realistic
  | boxChannel
  | dome
  deriving DecidableEq

/-- 296, 398, 460: `strcpy` of an option into an array of 32 characters. -/
def copied (o : Option Word) (dflt : Word) : Except Err Word :=
  match o with
  | none => .ok dflt
  | some w => if 32 < w.length + 1 then .error .undefined else .ok w

/-- 564-648 -/
def kind (o : Options) (t : Word) : Except Err Kind :=
  if t = "rectangular_basin".toList then .ok .rectangular
  else if t = "gaussian".toList then .ok .gaussian
  else if t = "bowl".toList then .ok .bowl
  else if t = "idealized".toList then .ok .idealized
  else if t = "realistic".toList then
    if o.topogFile.isNone ∨ o.topogField.isNone then .error .refused else .ok .realistic
  else if t = "box_channel".toList then
    if o.jwestSouth ≤ 0 ∨ o.jwestNorth ≤ 0 ∨ o.jeastSouth ≤ 0 ∨ o.jeastNorth ≤ 0 ∨ o.jwestNorth < o.jwestSouth ∨ o.jeastNorth < o.jeastSouth then .error .refused
    else .ok .boxChannel
  else if t = "dome".toList then .ok .dome
  else .error .refused

/-- 393-648: kind of topography and name of the output file. -/
def options (o : Options) : Except Err (Kind × Word) := do
  let t ← copied o.type "realistic".toList
  let f ← copied o.output "topog.nc".toList
  if o.mosaic.isNone then .error .refused
  else if o.xRefine ≠ 2 ∨ o.yRefine ≠ 2 then .error .refused
  else if o.vgrid.isSome ∧ t ≠ "realistic".toList then .error .refused
  else do
    let k ← kind o t
    .ok (k, f)

/-- A tile: size of the supergrid and attributes of the grid file. -/
structure Tile where
  nx : Nat
  ny : Nat
  atts : Atts

/-- What is defined for a tile. -/
structure Def where
  dimX : Word
  nx : Nat
  dimY : Word
  ny : Nat
  depth : Word
  level : Option Word
  deriving DecidableEq

/-- 717-729: names with the number of the tile if there are several. -/
def tiled (ntiles n : Nat) (w : Word) : Word := if ntiles = 1 then w else w ++ "_tile".toList ++ CString.digits (n + 1)

/-- 710-738 for tile `n` -/
def define (vgrid : Bool) (ntiles n : Nat) (t : Tile) : Def :=
  { dimX := tiled ntiles n "nx".toList
    nx := t.nx / 2
    dimY := tiled ntiles n "ny".toList
    ny := t.ny / 2
    depth := tiled ntiles n "depth".toList
    level := if vgrid then some (tiled ntiles n "num_levels".toList) else none }

/-- 696-749: the tiles from number `n` on; `flag` is `use_great_circle_algorithm`. The variable for the tile before is declared in the loop and 0 in every pass (697). -/
def tiles (vgrid : Bool) (ntiles : Nat) : Nat → Bool → List Tile → Except Err (List Def × Bool)
  | _, flag, [] => .ok ([], flag)
  | n, _, t :: ts =>
    if t.nx % 2 ≠ 0 ∨ t.ny % 2 ≠ 0 then .error .refused
    else match readGca t.atts with
      | .error e => .error e
      | .ok now =>
        let prev := false
        if 0 < n ∧ now ≠ prev then .error .refused
        else match tiles vgrid ntiles (n + 1) now ts with
          | .error e => .error e
          | .ok (ds, f) => .ok (define vgrid ntiles n t :: ds, f)

/-- The header of the output file. -/
structure Header where
  kind : Kind
  file : Word
  defs : List Def
  atts : Atts

/-- 393-752: `args` is the command line, from which the history is made (671-676). -/
def main (args : List Word) (o : Options) (ts : List Tile) : Except Err Header := do
  let (k, f) ← options o
  let h ← history (size .topog) args
  let (ds, gca) ← tiles o.vgrid.isSome ts.length 0 false ts
  .ok ⟨k, f, ds, provenance (some h) gca⟩

end Verif.TopogDriver
