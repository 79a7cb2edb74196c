import Mathlib.Data.List.Basic
/-
Model of the axes of fregrid: which axes the chosen fields have, which part of them is read, and which axes the output file gets.

Source: /repo/src/fre-grid/fregrid_util.c: `get_input_metadata` 858-1362 (fields of one tile 902-1337, `is_axis_data` 1350-1362) and
`set_output_metadata` 1542-1633, 1662-1676; /repo/src/fre-grid/fregrid.c 643-650; `set_field_struct` 114.

Simplifications: one tile of one file. A NetCDF dimension comes with its coordinate variable; reading past the end of a variable ends the program (error of
NetCDF). `kbegin`, `kend` are an optional pair, `none` for the defaults 0, -1; fregrid.c 643-650 refuses other pairs than 1 ≤ begin ≤ end.
Attributes, types and deflation are left out. `do_regrid` is given (930-955).
-/
namespace Verif.FregridMeta

/-- A dimension of the input file: name, size, kind ('X', 'Y', 'Z', 'T', 'N'), values of its coordinate variable, and its bounds: `bndtype` 0 none, 1 one list
of `size + 1` values, 2 pairs. -/
structure Dim (F : Type) where
  name : String
  size : Nat
  cart : Char
  data : Nat → F
  bndtype : Nat
  bnd : Nat → F

structure Var (F : Type) where
  name : String
  regrid : Bool
  dims : List (Dim F)

/-- Options: levels and time steps, from 1. -/
structure Opts where
  k : Option (Nat × Nat)
  l : Option (Nat × Nat)

inductive Err
  | sizeX | sizeY | level | time | zPlace | dims | edge | name
deriving DecidableEq, Repr

/-- Settings of a field (`init_var_config`, then 1215-1277). -/
structure Cfg where
  nz : Nat := 1
  nn : Nat := 1
  kstart : Nat := 0
  kend : Nat := 0
  lstart : Nat := 0
  lend : Nat := 0
  nt : Nat
deriving DecidableEq, Repr

/-- An axis of the file structure; `data`, `bnd` are what was read. -/
structure Axis (F : Type) where
  name : String
  cart : Char
  size : Nat
  data : Nat → F
  bndtype : Nat
  bnd : Nat → F

/-- `start0` is `start[0]`, which is kept from one read to the next. -/
structure St (F : Type) where
  axes : List (Axis F)
  start0 : Nat
  nt : Nat

variable {F : Type}

/-- Dimension `k` counted from the last, from 1. -/
def fromLast (ds : List (Dim F)) (k : Nat) : Option (Dim F) := if k ≤ ds.length then ds[ds.length - k]? else none

/-- 1224-1246 -/
def levels (o : Opts) (ds : List (Dim F)) (c : Cfg) : Except Err Cfg :=
  match fromLast ds 3 with
  | none => .ok c
  | some d =>
    if d.cart = 'Z' then
      match o.k with
      | none => .ok { c with nz := d.size, kstart := 0, kend := d.size - 1 }
      | some (b, e) => if d.size < e then .error .level else .ok { c with nz := e - b + 1, kstart := b - 1, kend := e - 1 }
    else if d.cart = 'N' then .ok { c with nn := d.size }
    else .ok c

/-- 1247-1256 -/
def fourth (ds : List (Dim F)) (c : Cfg) : Except Err Cfg :=
  match fromLast ds 4 with
  | none => .ok c
  | some d => if d.cart = 'Z' then .error .zPlace else if d.cart = 'N' then .ok { c with nn := d.size } else .ok c

/-- 1258-1276 -/
def times (o : Opts) (ds : List (Dim F)) (c : Cfg) : Except Err Cfg :=
  match ds.head? with
  | none => .ok c
  | some d =>
    if d.cart = 'T' then
      match o.l with
      | none => .ok { c with lstart := 0, lend := d.size - 1, nt := d.size }
      | some (b, e) => if d.size < e then .error .time else .ok { c with lstart := b - 1, lend := e - 1, nt := e - b + 1 }
    else .ok c

/-- 1220-1223 -/
def sizes (nx ny : Nat) (ds : List (Dim F)) : Except Err Unit :=
  if (fromLast ds 1).map (·.size) ≠ some nx then .error .sizeX
  else if (fromLast ds 2).map (·.size) ≠ some ny then .error .sizeY
  else .ok ()

/-- Settings of a field; `nt` is that of the file. -/
def config (o : Opts) (nx ny : Nat) (v : Var F) (nt : Nat) : Except Err Cfg :=
  if v.regrid then do
    let _ ← sizes nx ny v.dims
    let c ← levels o v.dims { nt := nt }
    let c ← fourth v.dims c
    times o v.dims c
  else .ok { nt := nt }

/-- 1300-1312: where the reading of a new axis starts, and how long it is. -/
def startOf (regrid : Bool) (c : Cfg) (d : Dim F) (start0 : Nat) : Nat :=
  if regrid then if d.cart = 'T' then c.lstart else if d.cart = 'Z' then c.kstart else 0 else start0

/-- 1300-1312 -/
def sizeOf (regrid : Bool) (c : Cfg) (d : Dim F) : Nat :=
  if regrid then if d.cart = 'T' then c.nt else if d.cart = 'Z' then c.nz else d.size else d.size

/-- 1279-1335: look the axis up, or add it. -/
def addAxis (regrid : Bool) (c : Cfg) (s : St F) (d : Dim F) : Except Err (St F × Nat) :=
  match s.axes.findIdx? (fun a => a.name == d.name) with
  | some j => .ok (s, j)
  | none =>
    if 20 < s.axes.length + 1 then .error .dims
    else
      let b := startOf regrid c d s.start0
      let n := sizeOf regrid c d
      if d.size < b + n then .error .edge
      else .ok ({ s with start0 := b, axes := s.axes ++ [⟨d.name, d.cart, n, fun k => d.data (b + k), d.bndtype,
        if d.bndtype = 2 then fun k => d.bnd (2 * b + k) else fun k => d.bnd (b + k)⟩] }, s.axes.length)

/-- The loop 1278-1336 over the dimensions: `index[i]`. -/
def addAxes (regrid : Bool) (c : Cfg) : St F → List (Dim F) → Except Err (St F × List Nat)
  | s, [] => .ok (s, [])
  | s, d :: l => match addAxis regrid c s d with
    | .error e => .error e
    | .ok (s, j) => match addAxes regrid c s l with
      | .error e => .error e
      | .ok (s, is) => .ok (s, j :: is)

/-- One field. -/
def scanVar (o : Opts) (nx ny : Nat) (s : St F) (v : Var F) : Except Err (St F × Cfg × List Nat) :=
  match config o nx ny v s.nt with
  | .error e => .error e
  | .ok c => match addAxes v.regrid c { s with nt := c.nt } v.dims with
    | .error e => .error e
    | .ok (s, is) => .ok (s, c, is)

/-- All fields of the tile, 902-1337. -/
def scan (o : Opts) (nx ny : Nat) : St F → List (Var F) → Except Err (St F × List (Cfg × List Nat))
  | s, [] => .ok (s, [])
  | s, v :: l => match scanVar o nx ny s v with
    | .error e => .error e
    | .ok (s, r) => match scan o nx ny s l with
      | .error e => .error e
      | .ok (s, rs) => .ok (s, r :: rs)

/-- Start: 858-871. -/
def start : St F := ⟨[], 0, 1⟩

/-! ### Output -/

/-- The output grid and the output levels. -/
structure Out (F : Type) where
  nx : Nat
  ny : Nat
  lont : Nat → F
  latt : Nat → F
  lonc : Nat → F
  latc : Nat → F
  isLatlon : Bool
  /-- `--standard_dimension` -/
  standard : Bool
  nz : Nat
  z : Nat → F
  zb : Nat → F

/-- 1543-1549: size of an output axis. -/
def outSize (g : Out F) (a : Axis F) : Nat :=
  if a.cart = 'X' then g.nx else if a.cart = 'Y' then g.ny else if a.cart = 'Z' ∧ 0 < g.nz then g.nz else a.size

/-- 1551-1555: kind of its bounds. -/
def outBnd (g : Out F) (a : Axis F) : Nat :=
  let xy := a.cart = 'X' ∨ a.cart = 'Y'
  let b := if g.standard ∧ xy then 3 else a.bndtype
  if b = 0 ∧ xy ∧ g.isLatlon then 3 else b

/-- 1560-1576, `lont` and so on in degrees. -/
def outData (g : Out F) (a : Axis F) : Nat → F :=
  if a.cart = 'X' then g.lont else if a.cart = 'Y' then g.latt else if a.cart = 'Z' ∧ 0 < g.nz then g.z else a.data

/-- 1577-1633 -/
def outBounds (g : Out F) (a : Axis F) : Nat → F :=
  let pairs := fun (b : Nat → F) (k : Nat) => b (k / 2 + k % 2)
  if outBnd g a = 1 then
    if a.cart = 'X' then g.lonc else if a.cart = 'Y' then g.latc else if a.cart = 'Z' ∧ 0 < g.nz then g.zb else a.bnd
  else if a.cart = 'X' then pairs g.lonc else if a.cart = 'Y' then pairs g.latc else if a.cart = 'Z' ∧ 0 < g.nz then pairs g.zb else a.bnd

def outAxis (g : Out F) (a : Axis F) : Axis F := ⟨a.name, a.cart, outSize g a, outData g a, outBnd g a, outBounds g a⟩

/-- 1668-1675: name of the dimension in the output file; `isInt` tells the axes whose coordinate variable is of type NC_INT. -/
def outName (g : Out F) (isInt : String → Bool) (a : Axis F) : String :=
  if (isInt a.name ∨ g.standard) ∧ a.cart = 'X' then "lon" else if (isInt a.name ∨ g.standard) ∧ a.cart = 'Y' then "lat" else a.name

/-- 1662-1676: `mpp_def_dim` for all axes; a name that is in use ends the program. -/
def defDims (g : Out F) (isInt : String → Bool) (l : List (Axis F)) : Except Err (List String) :=
  let ns := l.map (outName g isInt)
  if ns.Nodup then .ok ns else .error .name

/-! ### Fields that are axes -/

/-- 1350-1362: places of the array of fields that are set. `field` is what the loop over the fields has left: the second components of the vectors if there
are vectors, otherwise the scalars; one file. The pair: length of that array, places that are written. -/
def axisDataWrites (nscalar nvector : Nat) : Nat × List Nat :=
  (if 0 < nvector then nvector else nscalar, List.range (nscalar + 2 * nvector))

end Verif.FregridMeta
