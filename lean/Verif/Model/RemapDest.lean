import Verif.Model.RemapLand
/-
Model of src/remap-land/remap_land.c, second part: the tiles of the destination grid and the compressed output.
Fractions are elements of a field; a division by a sum of fractions that is zero, which gives no number in the program, gives 0
here, and the theorems about fractions exclude it.
-/
namespace Verif.RemapLand

/-- Values of the option `--file_type`, l.191-198 and 365-382 -/
inductive FileType
  | land | soil | glac | lake | vegn | cana | snow | fire
deriving DecidableEq, Repr

/-- `use_all_tile`, l.964-965 -/
def FileType.allTile (t : FileType) : Bool := t = .land || t = .cana || t = .snow

inductive Kind
  | soil | glac | lake
deriving DecidableEq, Repr

/-- The conditions of l.1460, 1489 and 1508 -/
def FileType.keeps (t : FileType) : Kind → Bool
  | .soil => t ≠ .glac && t ≠ .lake
  | .glac => t ≠ .soil && t ≠ .vegn && t ≠ .lake
  | .lake => t ≠ .soil && t ≠ .vegn && t ≠ .glac

/-- What is known about one destination cell before l.1444. `soil`, `glac` and `lake` are the fractions of the cold restart
file (`soil_frac_cold` etc.), `none` if the count is 0 or the kind does not exist; the lists are the source tiles of the
nearest source cell `p` (elements `ntile_src * p + l` of the source arrays for `l` below the count), and the faces are those
of these cells. -/
structure Cell (K : Type) where
  soil : Option K
  glac : Option K
  lake : Option K
  soilSrc : List (Slot K)
  glacSrc : List (Slot K)
  lakeSrc : List (Slot K)
  soilFace : Nat
  glacFace : Nat
  lakeFace : Nat

/-- One element of `soil_tag_dst` (or `glac_tag_dst`, `lake_tag_dst`), `vegn_tag_dst`, `land_frac_dst`, `land_idx_map` and
`land_face_map` -/
structure DTile (K : Type) where
  kind : Kind
  frac : K
  tag : Int
  tag2 : Option Int
  idx : Nat
  face : Nat
deriving DecidableEq

/-- `land_count_dst`, the arrays, `nidx_dst` -/
structure Dst (K : Type) where
  count : Nat → Nat
  slots : Nat → Option (DTile K)
  nidx : Nat

/-- The arrays before the loop, l.1255-1279 and 1446 -/
def Dst.empty (K : Type) : Dst K := { count := fun _ => 0, slots := fun _ => none, nidx := 0 }

/-- Write tiles at the positions `k`, `k + 1`, ... of arrays of length `size` -/
def putAll {K : Type} (size : Nat) : Nat → List (DTile K) → Dst K → Except Err (Dst K)
  | _, [], s => .ok s
  | k, d :: ds, s =>
    if size ≤ k then .error .undefined
    else putAll size (k + 1) ds { s with slots := fun q => if q = k then some d else s.slots q, nidx := s.nidx + 1 }

/-- `land_count_dst[i] += n` -/
def Dst.bump {K : Type} (s : Dst K) (i n : Nat) : Dst K := { s with count := fun q => if q = i then s.count q + n else s.count q }

variable {K : Type} [Field K]

/-- The soil tiles of cell `i`, l.1450-1480. The loop of l.1476 which divides by `totfrac` is joined with the loop before it.
-/
def soilPart (t : FileType) (size ntile i : Nat) (c : Cell K) (s : Dst K) : Except Err (Dst K) :=
  match c.soil with
  | none => .ok s
  | some cold =>
    let totfrac := c.soilSrc.foldl (fun a x => a + x.frac) 0
    let tiles := c.soilSrc.map fun x =>
      { kind := .soil, frac := x.frac * cold / totfrac, tag := x.tag, tag2 := x.tag2, idx := x.idx, face := c.soilFace }
    do
      let s' ← if t.keeps .soil then putAll size (ntile * i + s.count i) tiles s else .ok s
      .ok (s'.bump i c.soilSrc.length)

/-- The glacier or the lake of cell `i`, l.1481-1499 and 1500-1517 -/
def onePart (t : FileType) (kind : Kind) (size ntile i : Nat) (cold : Option K) (src : List (Slot K)) (face : Nat)
    (s : Dst K) : Except Err (Dst K) :=
  match cold with
  | none => .ok s
  | some cold =>
    match src with
    | [x] => do
      let tile := { kind, frac := cold, tag := x.tag, tag2 := none, idx := x.idx, face }
      let s' ← if t.keeps kind then putAll size (ntile * i + s.count i) [tile] s else .ok s
      .ok (s'.bump i 1)
    | _ => .error .countNotOne

/-- One turn of the loop of l.1447 -/
def cellStep (t : FileType) (size ntile i : Nat) (c : Cell K) (s : Dst K) : Except Err (Dst K) := do
  let s ← soilPart t size ntile i c s
  let s ← onePart t .glac size ntile i c.glac c.glacSrc c.glacFace s
  onePart t .lake size ntile i c.lake c.lakeSrc c.lakeFace s

/-- The first `m` turns of the loop of l.1447, with arrays of length `size` -/
def destLoop (t : FileType) (size ntile : Nat) (cells : Nat → Cell K) : Nat → Except Err (Dst K)
  | 0 => .ok (Dst.empty K)
  | m + 1 => do
    let s ← destLoop t size ntile cells m
    cellStep t size ntile m (cells m) s

/-- The tiles of the `nxc` destination cells of one process, l.1444-1519 -/
def dest (t : FileType) (ntile nxc : Nat) (cells : Nat → Cell K) : Except Err (Dst K) :=
  destLoop t (ntile * nxc) ntile cells nxc

/-- `idx_dst`, l.1523-1535; `npts = nx_dst * ny_dst` -/
def idxDst {α : Type} (ntile npts isc : Nat) (slots : Nat → Option α) (k : Nat) : Option Nat :=
  if (slots k).isSome then some (k % ntile * npts + k / ntile + isc) else none

/-! ## compress_int_data and compress_double_data, l.2613-2680 -/

/-- The arguments on one process: `npts`, `nidx`, `land_count`, `data` -/
structure Pe (α : Type) where
  npts : Nat
  nidx : Nat
  count : Nat → Nat
  data : Nat → Option α

/-- What one process gathers for tile `n`: the elements `pos1`, ... `pos - 1` of `data_local`, l.2660-2673. `none` is an
element that was not written: `MPP_FILL_INT` in the integer version, not initialised in the other. -/
def segment {α : Type} (ntile : Nat) (allTile : Bool) (pe : Pe α) (n : Nat) : List (Option α) :=
  (List.range pe.npts).flatMap fun i =>
    if n < pe.count i then
      match pe.data (ntile * i + n) with
      | some v => [some v]
      | none => if allTile then [none] else []
    else []

/-- The function on all processes; gathering appends the parts of the processes in their order. `data_local` has `nidx`
elements. -/
def compress {α : Type} (ntile : Nat) (allTile : Bool) (pes : List (Pe α)) : Except Err (List (Option α)) :=
  if pes.any fun pe => pe.nidx < ((List.range ntile).map fun n => (segment ntile allTile pe n).length).sum then
    .error .undefined
  else .ok ((List.range ntile).flatMap fun n => pes.flatMap fun pe => segment ntile allTile pe n)

/-- The first point and the number of points of each process: consecutive parts of the points of a face, l.1122-1136 -/
def layout : Nat → List Nat → List (Nat × Nat)
  | _, [] => []
  | o, m :: ms => (o, m) :: layout (o + m) ms

/-- A variable of the new file for one face: every process finds the tiles of its points and the values of the variable
(`field`, from the first point of the process and the tiles), and the values are compressed. -/
def written {α : Type} (t : FileType) (ntile : Nat) (cells : Nat → Cell K) (sizes : List Nat)
    (field : Nat → Dst K → Nat → Option α) : Except Err (List (Option α)) := do
  let pes ← (layout 0 sizes).mapM fun om => do
    let s ← dest t ntile om.2 fun i => cells (om.1 + i)
    .ok ({ npts := om.2, nidx := s.nidx, count := s.count, data := field om.1 s } : Pe α)
  compress ntile t.allTile pes

end Verif.RemapLand
