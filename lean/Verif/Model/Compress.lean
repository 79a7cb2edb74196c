import Verif.Model.NcArray
/-
Model of reading and writing variables that are compressed by gathering.

Source: /repo/lib/libnfu/nfu_compress.F90: `nfu_get_compressed_var_r8` (87-217),
`nfu_get_compressed_var_int` (221-309), `nfu_put_compressed_var_r8` (325-404),
`nfu_put_compressed_var_int` (408-485).

Simplifications: values are members of an arbitrary type; the netCDF queries succeed; a variable is a
buffer with the first (fastest) dimension varying first, as the Fortran interface delivers it; the
optional `start`/`count` section is a separate definition (`getSection`). Reads and writes outside an
array are the outcome `none`. Integer overflow is not modelled.
-/
namespace Verif.Compress

/-- One dimension of a compressed variable: its length in the file and, for a compressed dimension, the
stored grid indices and the number of grid points (product of the lengths of the dimensions named in
the `compress` attribute, nfu_compress.F90 126-135). -/
structure CDim where
  len : Nat
  comp : Option (List Int × Nat)

/-- Length in the unpacked array (lines 126-137). -/
def CDim.gsize (d : CDim) : Nat := match d.comp with
  | some (_, n) => n
  | none => d.len

/-- `diminfo_type`, 62-66. -/
structure DimInfo where
  idx : Option (List Int)
  length : Nat
  stride : Nat

/-- Loop over dimensions, 117-140, 240-261, 344-366, 427-449: strides in the unpacked array. -/
def dimInfos : Nat → List CDim → List DimInfo
  | _, [] => []
  | stride, d :: ds =>
    { idx := d.comp.map (·.1), length := d.len, stride := stride } ::
      dimInfos (stride * d.gsize) ds

/-- Result of computing a destination. -/
inductive Dest where
  | oob            -- read outside `idx`
  | skip           -- negative index: invalid point
  | at (ii : Int)  -- Fortran index
  deriving DecidableEq

/-- Loop computing the destination index, 164-177, 274-287; `ii` is the value so far. -/
def dest : List DimInfo → List Nat → Int → Dest
  | [], _, ii => .at ii
  | _ :: _, [], _ => .oob
  | d :: ds, k :: ks, ii =>
    match d.idx with
    | some ix =>
      match ix[k]? with
      | none => .oob
      | some v => if 0 ≤ v then dest ds ks (ii + v * d.stride) else .skip
    | none => dest ds ks (ii + (k : Int) * d.stride)

/-- The same loop in the writing routines, which do not test for negative indices: 376-383,
462-469. -/
def destPut : List DimInfo → List Nat → Int → Option Int
  | [], _, ii => some ii
  | _ :: _, [], _ => none
  | d :: ds, k :: ks, ii =>
    match d.idx with
    | some ix =>
      match ix[k]? with
      | none => none
      | some v => destPut ds ks (ii + v * d.stride)
    | none => destPut ds ks (ii + (k : Int) * d.stride)

/-- Increment of the indices, 189-193, 296-300, 388-392, 456-460. -/
def incr : List DimInfo → List Nat → List Nat
  | d :: ds, k :: ks => if k + 1 < d.length then (k + 1) :: ks else 0 :: incr ds ks
  | _, ks => ks

/-- The arrays written by the reading routines: `data`, `mask` and the test `ocean_index /= 0`. -/
structure GetSt (α : Type) where
  data : List α
  mask : List Bool
  hit : List Bool

/-- `data(ii) = v; mask(ii) = .true.; ocean_index(ii) = ii` (180-186). -/
def GetSt.put {α : Type} (s : GetSt α) (i : Nat) (v : α) : GetSt α :=
  { data := s.data.set i v, mask := s.mask.set i true, hit := s.hit.set i true }

/-- The loop over the buffer, 161-194. `idx` are the current indices. -/
def getLoop {α : Type} (ds : List DimInfo) : List α → List Nat → GetSt α → Option (GetSt α)
  | [], _, s => some s
  | v :: vs, idx, s =>
    match dest ds idx 1 with
    | .oob => none
    | .skip => getLoop ds vs (incr ds idx) s
    | .at ii =>
      if 0 < ii then
        if (ii - 1).toNat < s.data.length then
          getLoop ds vs (incr ds idx) (s.put (ii - 1).toNat v)
        else none
      else getLoop ds vs (incr ds idx) s

/-- Points not written get the ocean value (195-201). -/
def fillOcean {α : Type} (ov : α) : List α → List Bool → List α
  | d :: ds, h :: hs => (if h then d else ov) :: fillOcean ov ds hs
  | ds, _ => ds

/-- `nfu_get_compressed_var_r8` (87-217) without section, `nfu_get_compressed_var_int` (221-309, there
without `ocean`). The result is `data` and `mask`. -/
def getCompressed {α : Type} (dims : List CDim) (buffer : List α) (ocean : Option α)
    (data : List α) (mask : List Bool) : Option (List α × List Bool) :=
  let ds := dimInfos 1 dims
  match getLoop ds buffer (dims.map fun _ => 0)
      { data := data, mask := mask, hit := List.replicate data.length false } with
  | none => none
  | some s =>
    match ocean with
    | none => some (s.data, s.mask)
    | some ov => some (fillOcean ov s.data s.hit, s.mask)

/-- The loop of `nfu_put_compressed_var_r8`, 372-393: `n` values are still to be collected. -/
def putLoop {α : Type} (ds : List DimInfo) (src : List α) : Nat → List Nat → Option (List α)
  | 0, _ => some []
  | n + 1, idx =>
    match destPut ds idx 1 with
    | none => none
    | some ii =>
      if 0 < ii then
        match src[(ii - 1).toNat]? with
        | none => none
        | some v => (putLoop ds src n (incr ds idx)).map (v :: ·)
      else none

/-- Number of values of the variable in the file (`varsize`). -/
def varsize (dims : List CDim) : Nat := (dims.map CDim.len).prod

/-- `nfu_put_compressed_var_r8` (325-404): the values written to the file. -/
def putCompressed {α : Type} (dims : List CDim) (src : List α) : Option (List α) :=
  putLoop (dimInfos 1 dims) src (varsize dims) (dims.map fun _ => 0)

/-- The loop of `nfu_put_compressed_var_int`, 453-471, which increments before it uses the indices. -/
def putIntLoop {α : Type} (ds : List DimInfo) (src : List α) : Nat → List Nat → Option (List α)
  | 0, _ => some []
  | n + 1, idx =>
    match destPut ds (incr ds idx) 1 with
    | none => none
    | some ii =>
      if 0 < ii then
        match src[(ii - 1).toNat]? with
        | none => none
        | some v => (putIntLoop ds src n (incr ds idx)).map (v :: ·)
      else none

/-- `nfu_put_compressed_var_int` (408-485): line 473 calls `nf_get_var_int`, so the file keeps its
values (`old`) whatever was collected. -/
def putCompressedInt {α : Type} (dims : List CDim) (src old : List α) : Option (List α) :=
  (putIntLoop (dimInfos 1 dims) src (varsize dims) (dims.map fun _ => 0)).map fun _ => old

end Verif.Compress
