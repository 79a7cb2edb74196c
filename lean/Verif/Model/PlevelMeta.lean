import Mathlib.Algebra.Order.Floor.Ring
import Mathlib.Data.Real.Archimedean
/-
Attributes and missing values of the fields of plevel: /repo/src/plevel/pinterp_utilities.F90 `copy_axis` 45-179 (attributes and edges), `copy_variable` 217-317 (attributes),
`put_missing_value` 321-359; /repo/src/plevel/run_pressure_interp.F90 494-511, `interp_field` 975-1018, `mask_data` 1022-1029, `get_input_variable_info` 1295-1324,
`copy_variable_information` 1331-1428, `read_variable` 1562-1608 and `write_variable` 1612-1658 (packing).

Simplifications: numbers are real numbers, of one type; a stored value of packed data is a whole number; an attribute is a number or a text; `range` and `pack` of `copy_variable` are never given and
left out; calls of NetCDF succeed, but for a dimension that is not there.
-/
noncomputable section
namespace Verif.PlevelMeta
open Classical

inductive Val where
  | num (x : ℝ)
  | text (s : String)

abbrev Atts := List (String × Val)

/-- `NF90_INQUIRE_ATTRIBUTE` -/
def att (n : String) : Atts → Option Val
  | [] => none
  | a :: as => if a.1 = n then some a.2 else att n as

/-- `NF90_PUT_ATT`, `NF90_COPY_ATT`: an attribute that is there is replaced. -/
def put (n : String) (v : Val) : Atts → Atts
  | [] => [(n, v)]
  | a :: as => if a.1 = n then (n, v) :: as else a :: put n v as

/-- `NF90_GET_ATT` of a number -/
def number (n : String) (as : Atts) : Option ℝ :=
  match att n as with
  | some (.num x) => some x
  | _ => none

/-- 321-359 -/
def putMissing (m : ℝ) (out : Atts) : Atts := put "_FillValue" (.num m) (put "missing_value" (.num m) out)

/-- 280-303: the attributes from the first one on; second: `no_missing_value` -/
def copyLoop (miss : Option ℝ) : Atts → Atts → Bool → Atts × Bool
  | [], out, no => (out, no)
  | a :: as, out, no =>
    match miss with
    | some m => if a.1 = "missing_value" then copyLoop miss as (putMissing m out) false else copyLoop miss as (put a.1 a.2 out) no
    | none => copyLoop miss as (put a.1 a.2 out) no

/-- 278-309 -/
def copyAtts (miss : Option ℝ) (as : Atts) : Atts :=
  match miss, copyLoop miss as [] true with
  | some m, (out, true) => putMissing m out
  | _, (out, _) => out

/-- `field_type` -/
structure FieldInfo where
  doPack : Bool
  scale : ℝ
  offset : ℝ
  doMiss : Bool
  missIn : ℝ
  missOut : ℝ

/-- 1295-1318, 1348-1357; `useDefault` is the fill value of the type, if `use_default_missing_value` is set. -/
def fieldOf (useDefault : Option ℝ) (as : Atts) : FieldInfo :=
  let miss : Bool × ℝ := match number "missing_value" as with
    | some m => (true, m)
    | none => match number "_FillValue" as with
      | some m => (true, m)
      | none => (false, 0)
  let pack : Bool × ℝ × ℝ := match number "scale_factor" as, number "add_offset" as with
    | some s, some o => (true, s, o)
    | _, _ => (false, 1, 0)
  ⟨pack.1, pack.2.1, pack.2.2, miss.1, miss.2, match useDefault with | some d => d | none => miss.2⟩

/-- 1320-1323 -/
def unpackedIn (f : FieldInfo) : ℝ := if f.doMiss && f.doPack then f.missIn * f.scale + f.offset else f.missIn
/-- 1360-1363 -/
def unpackedOut (f : FieldInfo) : ℝ := if f.doMiss && f.doPack then f.missOut * f.scale + f.offset else f.missOut

/-- `nint` -/
def nint (x : ℝ) : ℝ := if 0 ≤ x then ((⌊x + 1 / 2⌋ : Int) : ℝ) else -((⌊-x + 1 / 2⌋ : Int) : ℝ)

/-- 1596-1607 -/
def readValue (f : FieldInfo) (v : ℝ) : ℝ :=
  if f.doPack then
    if f.doMiss then (if v ≠ f.missIn then v * f.scale + f.offset else unpackedIn f) else v * f.scale + f.offset
  else v

/-- 1620-1631 -/
def writeValue (f : FieldInfo) (x : ℝ) : ℝ :=
  if f.doPack then
    if f.doMiss then (if x ≠ unpackedOut f then nint ((x - f.offset) / f.scale) else f.missOut) else nint ((x - f.offset) / f.scale)
  else x

/-- Dimensions of a field without vertical axis (1399-1425) or with it (1383-1389): what is given to `copy_variable` as `missvalue`. -/
def missValue (vertical : Bool) (f : FieldInfo) : Option ℝ := if vertical || f.doMiss then some f.missOut else none

/-- The attributes of the field in the output. -/
def outAtts (useDefault : Option ℝ) (vertical : Bool) (as : Atts) : Atts := copyAtts (missValue vertical (fieldOf useDefault as)) as

/-- 1012-1014, 1539-1551: a value of a field without vertical axis -/
def copied (f : FieldInfo) (v : ℝ) : ℝ := writeValue f (readValue f v)

/-- 1006-1011, 1027-1028: a value `x` interpolated to a pressure level that is below the ground (`mask`) or not -/
def level (f : FieldInfo) (maskExtrap mask : Bool) (x : ℝ) : ℝ := writeValue f (if f.doMiss && maskExtrap && mask then unpackedOut f else x)

/-- copy_axis 66-73, 151-176: the name of the edges of an axis, blank if none -/
def edgeName (as : Atts) : Option String :=
  match att "edges" as, att "bounds" as with
  | some (.text e), some (.text b) => if e ≠ b then some b else some e
  | some (.text e), _ => some e
  | _, _ => none

/-- run_pressure_interp.F90 494-502: the axes that are written for an axis; `none`: error, no such dimension (82). -/
def axes (dims : List String) (axis : String) (as : Atts) : Option (List String) :=
  if axis ∈ dims then
    match edgeName as with
    | none => some [axis]
    | some e => if e ∈ dims then some [axis, e] else none
  else none

end Verif.PlevelMeta
