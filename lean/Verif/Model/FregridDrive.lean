import Mathlib.Data.List.Basic
/-
Model of the main loop of fregrid: which slab of which field is read, and where its remapped values are written.

Source: /repo/src/fre-grid/fregrid.c `main` 1029-1133; /repo/src/fre-grid/fregrid_util.c `get_input_metadata` 1224-1276 (flags of dimensions),
`set_output_metadata` 1521-1527, `do_vertical_interp` 789-819, `get_input_data` 2051-2076, `allocate_field_data` 2319-2330, `write_field_data` 2350-2392.

Simplifications: one tile, one process. Only coordinates of slabs and numbers of levels are modelled; values are in other models (C118, C119, C131).
A field has at most five dimensions (`dimname[5]`, 831). `--test_case` and time axes of different lengths are left out.
-/
namespace Verif.FregridDrive

/-- Settings of a field, see `Verif.FregridMeta.Cfg`; flags are those of 1224-1276. -/
structure Fld where
  regrid : Bool := true
  hasT : Bool
  hasN : Bool
  hasZ : Bool
  nn : Nat := 1
  nz : Nat := 1
  kstart : Nat := 0
  kend : Nat := 0
  lstart : Nat := 0
deriving DecidableEq, Repr

/-- One call of `get_input_data` and the call of `write_field_data` for its result: time, place on the fourth axis and first level, in the input and in the
output; number of levels. -/
structure Move where
  field : Nat
  inT : Nat
  inN : Nat
  inZ : Nat
  outT : Nat
  outN : Nat
  outZ : Nat
  levels : Nat
deriving DecidableEq, Repr

/-- One scalar field at one time step: fregrid.c 1037-1093. With `--extrapolate` all levels at once, `level_z` is -1: 2069-2073, 2363-2365. -/
def fieldMoves (extrapolate : Bool) (m l : Nat) (f : Fld) : List Move :=
  if f.hasT = false ∧ 0 < m then []
  else if f.regrid = false then []
  else (List.range f.nn).flatMap fun n =>
    if extrapolate then [⟨l, m + f.lstart, n, f.kstart, m, n, 0, f.nz⟩]
    else (List.range' f.kstart (f.kend + 1 - f.kstart)).map fun z => ⟨l, m + f.lstart, n, z, m, n, z, 1⟩

/-- All scalar fields at all time steps: 1029-1094. -/
def drive (extrapolate : Bool) (nt : Nat) (fs : List Fld) : List Move :=
  (List.range nt).flatMap fun m => (List.range fs.length).flatMap fun l =>
    match fs[l]? with
    | some f => fieldMoves extrapolate m l f
    | none => []

/-- One level written: field, place in the input, place in the output. -/
structure Cell where
  field : Nat
  inp : Nat × Nat × Nat
  out : Nat × Nat × Nat
deriving DecidableEq, Repr

/-- The levels of a call. -/
def cells (v : Move) : List Cell := (List.range v.levels).map fun j => ⟨v.field, (v.inT, v.inN, v.inZ + j), (v.outT, v.outN, v.outZ + j)⟩

/-- The vectors, 1096-1118: `level_z`, `level_n` are those left by the scalars. -/
def vectorMove (levelZ levelN m l : Nat) (f : Fld) : Move := ⟨l, m + f.lstart, levelN, levelZ, m, levelN, levelZ, 1⟩

/-- `level_z`, `level_n` after the loops over the scalar `f` (the last with `regrid`). -/
def left (f : Fld) : Nat × Nat := (f.kend + 1, f.nn)

/-! ### Places in the file -/

/-- Flags of a field whose dimensions have the kinds `ks`: 1224-1276. `none` if the program ends. -/
def flags (ks : List Char) : Option (Bool × Bool × Bool) :=
  let third := if 3 ≤ ks.length then ks[ks.length - 3]? else none
  let fourth := if 4 ≤ ks.length then ks[ks.length - 4]? else none
  if fourth = some 'Z' then none
  else some (ks.head? = some 'T', third = some 'N' || fourth = some 'N', third = some 'Z')

/-- `start` in `get_input_data` 2063-2076 and in `write_field_data` 2354-2368: `none` if the program ends. -/
def places (ndim : Nat) (fl : Bool × Bool × Bool) (t n z : Nat) : Option (List Nat) :=
  let l := (if fl.1 then [t] else []) ++ (if fl.2.1 then [n] else []) ++ (if fl.2.2 then [z] else [])
  if ndim = l.length + 2 then some (l ++ [0, 0]) else none

/-! ### Numbers of levels in memory -/

/-- Levels for which memory is there at `write_field_data`: `allocate_field_data`, and `do_vertical_interp` 801-804 for fields with levels. `vg` is the number of
output levels of `--dst_vgrid`. -/
def allocated (extrapolate : Bool) (vg : Option Nat) (f : Fld) : Nat :=
  if extrapolate then (match vg with | some n => if f.hasZ then n else f.nz | none => f.nz) else 1

/-- Levels that `write_field_data` reads: 2352-2353 with `nz` of the output field, 1521-1522. -/
def written (extrapolate : Bool) (vg : Option Nat) (f : Fld) : Nat :=
  if extrapolate then (match vg with | some n => n | none => f.nz) else 1

/-- Levels that `do_vertical_interp` copies, 800: those of the axis of the first field, `nk1`; there are `f.nz`. -/
def copied (nk1 : Nat) (f : Fld) : Nat := if f.hasZ then nk1 else 0

end Verif.FregridDrive
