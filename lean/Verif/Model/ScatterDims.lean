import Verif.Model.Scatter
/-
Model of how mppncscatter decides which dimensions are scattered.

Source: /repo/src/mpp-ncscatter/mppncscatter.c, `get_scatter_dims`, lines 280-410.

The buffer `att` (line 284) is not initialised, is shared by all dimensions, and `nc_get_att_text` does
not put a terminating NUL behind the text (contract of the netCDF library: exactly the characters of
the attribute are stored). The model therefore carries the buffer from dimension to dimension.

Simplifications: the queries of names and lengths succeed (304-306, 313-317 not modelled); attribute
texts have at most 256 characters (a longer one overruns the buffer); reading a text attribute of type
char succeeds (344-347, 382-385 not modelled).
-/
namespace Verif.ScatterDims

/-- An attribute: `none` if it is not of type char, else its characters. -/
abbrev Attr := Option (List Char)

/-- Metadata of one dimension. -/
structure DimMeta where
  name : String
  isRec : Bool
  len : Nat
  /-- is there a variable of the same name? -/
  hasVar : Bool
  /-- its `units` -/
  units : Option Attr
  /-- its `cartesian_axis` -/
  axis : Option Attr

/-- Command-line options: `-X`, `-Y` lists, `-x`, `-y` numbers of divisions. -/
structure Opts where
  xdims : List String
  ydims : List String
  nx : Nat
  ny : Nat

/-- Contents of `char att[256]`. -/
abbrev Buf := Nat → Char

/-- `nc_get_att_text`: the characters of the attribute overwrite the beginning of the buffer. -/
def load (t : List Char) (b : Buf) : Buf := fun i => (t[i]?).getD (b i)

/-- `!strncasecmp (att, pat, strlen (pat))` for a pattern in lower case without NUL: the buffer begins
with the pattern, ignoring case. -/
def matchAt (b : Buf) : Nat → List Char → Bool
  | _, [] => true
  | i, c :: cs => (b i).toLower == c && matchAt b (i + 1) cs

/-- Patterns of lines 350-355. -/
def unitsX : List (List Char) :=
  ["degrees_east".toList, "degree_east".toList, "degrees_e".toList, "degree_e".toList,
   "degreee".toList, "degreese".toList]

/-- Patterns of lines 358-364. -/
def unitsY : List (List Char) :=
  ["degrees_north".toList, "degree_north".toList, "degrees_n".toList, "degree_n".toList,
   "degreesn".toList, "degreen".toList]

/-- Variables that survive from one dimension to the next: `foundunits` and `att`. -/
structure DState where
  found : Bool
  buf : Buf

/-- Lines 336-371: the effect of `units` on `scatter_type`, `foundunits` and `att`. -/
def unitsStep (m : DimMeta) (st : DState) : ScatterKind × DState :=
  match m.units with
  | some (some t) =>
    let b := load t st.buf
    if unitsX.any (matchAt b 0) then (.x, { found := true, buf := b })
    else if unitsY.any (matchAt b 0) then (.y, { found := true, buf := b })
    else (.no, { found := false, buf := b })
  | _ => (.no, st)

/-- Lines 373-393; the error is `exit (-1)`. -/
def axisStep (m : DimMeta) (k : ScatterKind) (st : DState) : Except Unit (ScatterKind × DState) :=
  if st.found then .ok (k, st)
  else match m.axis with
    | none => .ok (k, st)
    | some none => .error ()
    | some (some t) =>
      let b := load t st.buf
      if matchAt b 0 ['x'] then .ok (.x, { st with buf := b })
      else if matchAt b 0 ['y'] then .ok (.y, { st with buf := b })
      else .ok (.no, { st with buf := b })

/-- One dimension (297-393): the kind, and the variables for the next one. -/
def dimKind (o : Opts) (m : DimMeta) (st : DState) : Except Unit (ScatterKind × DState) :=
  if m.isRec then .ok (.no, st)
  else if o.xdims.contains m.name then .ok (.x, st)
  else if o.ydims.contains m.name then .ok (.y, st)
  else if !m.hasVar then .ok (.no, st)
  else
    let r := unitsStep m st
    axisStep m r.1 r.2

/-- `ndiv` (396-406). -/
def ndiv (o : Opts) : ScatterKind → Nat
  | .x => o.nx
  | .y => o.ny
  | .no => 0

/-- The loop over dimensions; the results are kind and number of divisions. -/
def loopDims (o : Opts) : List DimMeta → DState → Except Unit (List (ScatterKind × Nat))
  | [], _ => .ok []
  | m :: ms, st =>
    match dimKind o m st with
    | .error e => .error e
    | .ok (k, st') =>
      match loopDims o ms st' with
      | .error e => .error e
      | .ok ks => .ok ((k, ndiv o k) :: ks)

/-- `get_scatter_dims`: `foundunits = 0` (287), `att` not initialised. -/
def getScatterDims (o : Opts) (ms : List DimMeta) (att : Buf) :
    Except Unit (List (ScatterKind × Nat)) :=
  loopDims o ms { found := false, buf := att }

end Verif.ScatterDims
