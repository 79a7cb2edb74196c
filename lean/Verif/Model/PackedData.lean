import Mathlib.Algebra.Order.Floor.Ring
import Mathlib.Algebra.Order.Field.Basic
/-
Model of packed data in fregrid: how values of a field are unpacked when read and packed when written.

Source: /repo/src/fre-grid/fregrid_util.c `get_field_attribute` 1890-1922, `copy_field_attribute` 1930-1938, `get_input_data` 2097-2124 (types and unpacking),
`write_field_data` 2378-2413.

Simplifications: numbers are elements of an ordered field with floor, without rounding; a value of a type for whole numbers is a whole number. A cast of a value
that does not fit into `short` or `int` is undefined in C and is left out of the model (`cast` gives the whole number).
-/
namespace Verif.PackedData

inductive Kind
  | short | int | float | double | other
deriving DecidableEq, Repr

/-- Attributes of the input field, as they are or are not there. -/
structure Atts (F : Type) where
  missing : Option F
  fill : Option F
  scale : Option F
  offset : Option F

/-- What the program keeps: 0 for what is not there. -/
structure Kept (F : Type) where
  hasMissing : Bool
  missing : F
  scale : F
  offset : F

variable {F : Type} [Field F] [LinearOrder F] [IsStrictOrderedRing F] [FloorRing F]

/-- `get_field_attribute` 1899-1918 -/
def kept (a : Atts F) : Kept F :=
  { hasMissing := a.missing.isSome || a.fill.isSome
    missing := match a.missing with | some m => m | none => (match a.fill with | some m => m | none => 0)
    scale := match a.scale with | some s => s | none => 0
    offset := match a.offset with | some o => o | none => 0 }

/-- 2117-2124: first the loop for the scale, then that for the offset. -/
def unpack (k : Kept F) (x : F) : F :=
  let y := if k.scale ≠ 0 ∧ x ≠ k.missing then x * k.scale else x
  if k.offset ≠ 0 ∧ y ≠ k.missing then y + k.offset else y

/-- 2378-2385: first the offset, then the scale. -/
def pack (k : Kept F) (x : F) : F :=
  let y := if k.offset ≠ 0 ∧ x ≠ k.missing then x - k.offset else x
  if k.scale ≠ 0 ∧ y ≠ k.missing then y / k.scale else y

/-- Casts of C: towards 0. -/
def cast (x : F) : F := if 0 ≤ x then (⌊x⌋ : F) else (⌈x⌉ : F)

/-- 2396-2413: the value in the file, `none` if the program ends. -/
def stored (t : Kind) (k : Kept F) (x : F) : Option F :=
  match t with
  | .short | .int => some (cast (pack k x))
  | .float | .double => some (pack k x)
  | .other => none

end Verif.PackedData
