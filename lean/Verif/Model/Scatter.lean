import Verif.Model.NcArray
import Verif.Model.Extent
import Verif.Model.Loop
/-
mppncscatter: src/mpp-ncscatter/mppncscatter.c
* `hyperslabcopy` 84-266
* `def_dim` 521-580, `def_var` 583-704 (the `domain_decomposition` attribute)
* `put_var` 706-1170
The five data types are treated by textually identical code; one type `α` stands for all of them.
-/
namespace Verif

/-- `memcpy(out + d, inp + s, n)`. -/
def memcpy {α : Type} (out : Nat → α) (d : Nat) (inp : Nat → α) (s n : Nat) : Nat → α :=
  fun x => if d ≤ x ∧ x < d + n then inp (s + (x - d)) else out x

/-- The loops of `hyperslabcopy`: one `memcpy` of `n` elements for every source position, each
followed by `offset += n`. `srcs` lists the source positions in the order of the loops. -/
def copyRows {α : Type} (inp : Nat → α) (n : Nat) (srcs : List Nat) (out : Nat → α) : Nat → α :=
  (srcs.foldl (fun (st : Nat × (Nat → α)) s => (st.1 + n, memcpy st.2 st.1 inp s n)) (0, out)).2

/-- `hyperslabcopy`, mppncscatter.c 84-266. `dims` are the lengths `dimlen[dimids[d]]`, and the
number of dimensions is the length of the lists. The case of 4 dimensions (210-262) leaves out
dimension 0: its loops run over `count[1]`, `count[2]` and its start position has no term for
`start[0]`. More than 4 dimensions: no case of the `switch`, nothing is copied. -/
def hyperslabcopy {α : Type} (dims start count : List Nat) (inp out : Nat → α) : Nat → α :=
  match dims, start, count with
  | [], [], [] => memcpy out 0 inp 0 1
  | [_], [s0], [c0] => memcpy out 0 inp s0 c0
  | [_, d1], [s0, s1], [c0, c1] =>
    copyRows inp c1 ((List.range c0).map (fun k => s0 * d1 + s1 + k * d1)) out
  | [_, d1, d2], [s0, s1, s2], [c0, c1, c2] =>
    copyRows inp c2 ((List.range c0).flatMap (fun k => (List.range c1).map (fun j =>
      s0 * d1 * d2 + s1 * d2 + s2 + k * (d1 * d2) + j * d2))) out
  | [_, _, d2, d3], [_, s1, s2, s3], [_, c1, c2, c3] =>
    copyRows inp c3 ((List.range c1).flatMap (fun k => (List.range c2).map (fun j =>
      s1 * d2 * d3 + s2 * d3 + s3 + k * (d2 * d3) + j * d3))) out
  | _, _, _ => out

/-- `scatter_type` of a dimension, scatterdim.h. -/
inductive ScatterKind
  | no | x | y
  deriving DecidableEq, Repr

/-- A dimension with its extents (`scatter_start[j]`, `scatter_end[j]`), which are meaningful for
scattered dimensions only. -/
structure ScatterDim where
  kind : ScatterKind
  len : Nat
  ext : List (Int × Int)

/-- Start and length of a dimension in tile `(xi, yi)`: the `switch` in put_var 878-892 and
1081-1094 and in def_dim 538-575. `none` is a read beyond the extents. -/
def ScatterDim.tile (s : ScatterDim) (xi yi : Nat) : Option (Nat × Nat) :=
  match s.kind with
  | .no => some (0, s.len)
  | .x => s.ext[xi]?.map (fun e => (e.1.toNat, (e.2 - e.1 + 1).toNat))
  | .y => s.ext[yi]?.map (fun e => (e.1.toNat, (e.2 - e.1 + 1).toNat))

/-- Starts and lengths of the given dimensions. -/
def tiles (sd : List ScatterDim) (xi yi : Nat) (dims : List Nat) : Option (List (Nat × Nat)) :=
  dims.mapM (fun d => (sd[d]?).bind (fun s => s.tile xi yi))

/-- Lengths in the input file of the given dimensions. -/
def lens (fd : List Nat) (dims : List Nat) : Option (List Nat) := dims.mapM (fun d => fd[d]?)

/-- `scatter_dims`, mppncscatter.c 1172-1192: the extents of all dimensions, given their kinds
(`get_scatter_dims`, see C16). The I/O layout is used only if both numbers are non-zero (1178). -/
def scatterDims (fd : List Nat) (kinds : List ScatterKind) (nx ny nxio nyio : Nat) :
    Except ExtErr (List ScatterDim) :=
  let io := decide (nxio ≠ 0 ∧ nyio ≠ 0)
  (fd.zip kinds).mapM (fun p =>
    match p.2 with
    | .no => .ok ⟨.no, p.1, []⟩
    | .x => (scatterDimExtents p.1 nx (if io then nxio else 0)).map (fun e => ⟨.x, p.1, e⟩)
    | .y => (scatterDimExtents p.1 ny (if io then nyio else 0)).map (fun e => ⟨.y, p.1, e⟩))

/-- The attribute written by def_var 648-700: only for a variable with one dimension, which is
scattered and has the variable's name. An existing attribute is otherwise copied (628-643). -/
def scatterAttr {α : Type} (sd : List ScatterDim) (xi yi : Nat) (v : NcVar α) : Option Decomp :=
  match v.dims with
  | [d] =>
    match sd[d]? with
    | some s =>
      if s.kind ≠ .no ∧ v.coord = some d then
        (s.tile xi yi).map (fun t => (1, (s.len : Int), (t.1 : Int) + 1, (t.1 : Int) + t.2))
      else v.decomp
    | none => v.decomp
  | _ => v.decomp

/-- A variable without record dimension, put_var 811-988, as it arrives in the file of tile
`(xi, yi)`. `junk` is the contents of the output buffer before the copy, `old` the contents of the
variable in the new file before the write (no fill mode); both are arbitrary. -/
def scatterStatic {α : Type} (fd : List Nat) (sd : List ScatterDim) (xi yi : Nat)
    (junk : Nat → α) (old : List Nat → α) (v : NcVar α) : Option (List Nat → α) :=
  match lens fd v.dims, tiles sd xi yi v.dims with
  | some shape, some ts =>
    if v.dims.length = 0 then                              -- 945-983: nc_put_var
      some (putVara old [] [] (getVar v.val []))
    else if v.dims.length > 4 then none                    -- instart[4] overflows
    else
      let start := ts.map Prod.fst
      let count := ts.map Prod.snd
      let buf := hyperslabcopy shape start count (getVar v.val shape) junk
      some (putVara old (List.replicate count.length 0) count buf)
  | _, _ => none

/-- A variable whose first dimension is the record dimension, put_var 990-1168. `rest` are its other
dimensions. For every record the slab of the input is read (1019, 1031-1069), cut to the tile
(1077-1106) and written at the same record. -/
def scatterRecord {α : Type} (fd : List Nat) (sd : List ScatterDim) (xi yi nrec : Nat)
    (junk : Nat → Nat → α) (old : List Nat → α) (rest : List Nat) (val : List Nat → α) :
    Option (List Nat → α) :=
  match lens fd rest, tiles sd xi yi rest with
  | some shape, some ts =>
    if rest.length > 3 then none                           -- instart[4] overflows
    else
      let start := ts.map Prod.fst
      let count := ts.map Prod.snd
      some (forPure (fun reci out =>
        let inp := getVara val (reci :: List.replicate shape.length 0) (1 :: shape)
        let buf := hyperslabcopy shape start count inp (junk reci)
        putVara out (reci :: List.replicate count.length 0) (1 :: count) buf) 0 nrec old)
  | _, _ => none

/-- One variable of the file of tile `(xi, yi)`. The record loop tests `dimids[0] != recid` also for
variables without dimensions, where `dimids[0]` is a left-over of the previous variable (line 1014);
this model takes such variables as skipped there. -/
def scatterVar {α : Type} (f : NcFile α) (sd : List ScatterDim) (xi yi : Nat)
    (junk : Nat → Nat → α) (old : List Nat → α) (v : NcVar α) : Option (NcVar α) :=
  let val : Option (List Nat → α) :=
    match v.dims, f.recdim with
    | d :: rest, some r =>
      if d = r then
        match f.dims[r]? with
        | some nrec => scatterRecord f.dims sd xi yi nrec junk old rest v.val
        | none => none
      else scatterStatic f.dims sd xi yi (junk 0) old v
    | _, _ => scatterStatic f.dims sd xi yi (junk 0) old v
  val.map (fun w => { v with decomp := scatterAttr sd xi yi v, val := w })

/-- The file of tile `(xi, yi)`: dimensions (def_dim 521-580; the record dimension is defined with
length `NC_UNLIMITED` and receives `nrec` records), `NumFilesInSet` (written at 1362, but then
overwritten at 1382 by the input file's attribute if it has one), variables. -/
def scatterFile {α : Type} (f : NcFile α) (sd : List ScatterDim) (nfiles : Int) (xi yi : Nat)
    (junk : Nat → Nat → Nat → α) (old : Nat → List Nat → α) : Option (NcFile α) :=
  match tiles sd xi yi (List.range f.dims.length),
    (f.vars.zipIdx.mapM (fun p => scatterVar f sd xi yi (junk p.2) (old p.2) p.1)) with
  | some ts, some vs =>
    some { dims := (ts.map Prod.snd).zipIdx.map (fun p =>
             if f.recdim = some p.2 then f.dims.getD p.2 0 else p.1)
           recdim := f.recdim, numFiles := some (f.numFiles.getD nfiles), vars := vs }
  | _, _ => none

/-- `get_num_divs`, mppncscatter.c 59-70. -/
def numDivs (nx ny nxio nyio : Nat) : Nat × Nat :=
  if nxio ≠ 0 ∧ nyio ≠ 0 then (nxio, nyio) else (nx, ny)

/-- `mppncscatter`, mppncscatter.c 1259-1442: the list of output files in the order of their numbers
`i = yi*nx + xi`. The kinds of the dimensions are an argument (`get_scatter_dims`, C16). `none`:
the program stops or leaves the defined behaviour. Reading and writing of attributes other than
those in `NcVar` is not modelled. -/
def mppncscatter {α : Type} (f : NcFile α) (kinds : List ScatterKind) (nx ny nxio nyio : Nat)
    (junk : Nat → Nat → Nat → Nat → α) (old : Nat → Nat → List Nat → α) :
    Option (List (NcFile α)) :=
  match scatterDims f.dims kinds nx ny nxio nyio with
  | .error _ => none
  | .ok sd =>
    let n := numDivs nx ny nxio nyio
    ((List.range n.2).flatMap (fun yi => (List.range n.1).map (fun xi => (xi, yi)))).mapM
      (fun t => scatterFile f sd ((n.1 : Int) * n.2) t.1 t.2 (junk (t.2 * n.1 + t.1))
        (old (t.2 * n.1 + t.1)))

end Verif
