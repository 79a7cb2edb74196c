import Verif.Model.PackedData
/-
Specification of packed data by the conventions for NetCDF: a stored value that is the missing value (or fill value) stands for no value; any other stored value `x`
stands for `x * scale_factor + add_offset`, with 1 and 0 for attributes that are not there.
-/
namespace Verif.Spec.PackedData
open Verif.PackedData

variable {F : Type} [Field F] [LinearOrder F] [IsStrictOrderedRing F] [FloorRing F]

/-- The stored value that stands for no value. -/
def marker (a : Atts F) : Option F := a.missing <|> a.fill

def scaleOf (a : Atts F) : F := a.scale.getD 1
def offsetOf (a : Atts F) : F := a.offset.getD 0

/-- What a stored value stands for. -/
def value (a : Atts F) (x : F) : Option F := if some x = marker a then none else some (x * scaleOf a + offsetOf a)

/-- What the program takes an unpacked value for: it is missing if there is a marker and it is equal to it. -/
def seen (a : Atts F) (y : F) : Option F := if some y = marker a then none else some y

end Verif.Spec.PackedData
