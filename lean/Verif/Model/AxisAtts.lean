import Mathlib.Data.List.Basic
import Mathlib.Data.Rat.Defs
/-
Attributes of axes: /repo/lib/libfrencutils/mpp_io.c `mpp_get_var_dimname` 693-727, `mpp_get_var_cart` 734-758, `mpp_get_var_bndname` 765-799, and the levels that fregrid finds with them:
/repo/src/fre-grid/fregrid_util.c `get_input_vgrid` 725-753.

Simplifications: the attributes of a variable are a function of their names, a text is a list of characters. `nc_get_att_text` (NetCDF library) writes the characters of a text without a 0, and fails for
attributes that are missing or numbers. Ids of files and variables are valid. `broken`: memory beyond a buffer is written.
-/
namespace Verif.AxisAtts

inductive Res (α : Type) where
  | ok (a : α)
  | error
  | broken

inductive Att where
  | text (s : List Char)
  | numbers (count : Nat)

abbrev Atts := String → Option Att

/-- `nc_get_att_text` into one character, and whether it succeeded; none: more than one is written -/
def getChar (cart : Char) : Option Att → Option (Char × Bool)
  | some (.text []) => some (cart, true)
  | some (.text [c]) => some (c, true)
  | some (.text (_ :: _ :: _)) => none
  | some (.numbers _) => some (cart, false)
  | none => some (cart, false)

/-- `mpp_get_var_cart` 744-757 -/
def cart (a : Atts) : Res Char :=
  match getChar 'N' (a "cartesian_axis") with
  | none => .broken
  | some (c, true) => .ok c
  | some (c, false) =>
    match getChar c (a "axis") with
    | none => .broken
    | some (d, _) => .ok d

/-- `mpp_get_var_bndname` 777-786: the attribute that is used -/
def bndAtt (a : Atts) : Option Att :=
  match a "climatology" with
  | some x => some x
  | none => match a "bounds" with
    | some x => some x
    | none => a "edges"

/-- 787-798, with the buffer of `size` characters of the caller (fregrid_util.c 831: 255) -/
def bndname (size : Nat) (a : Atts) : Res (List Char) :=
  match bndAtt a with
  | none => .ok ['n', 'o', 'n', 'e']
  | some (.text s) => if size ≤ s.length then .broken else .ok s
  | some (.numbers n) => if size ≤ n then .broken else .error

/-- A dimension: its name, and the attributes and values of the variable of that name, if there is one -/
structure Dim where
  name : List Char
  var : Option (Atts × List ℚ)

/-- `mpp_get_var_dimname` 693-727: the ids of all dimensions are written to `dims[4]` (695), the name to a buffer of `size` characters -/
def dimname (size : Nat) (dims : List Dim) (i : Nat) : Res (List Char) :=
  match dims[i]? with
  | none => .error
  | some d => if 4 < dims.length then .broken else if size ≤ d.name.length then .broken else .ok d.name

/-- `get_input_vgrid` 737-748: the loop from dimension `i` on; `n` dimensions are left, `z` are the levels so far -/
def levels (dims : List Dim) : Nat → Nat → List ℚ → Res (List ℚ)
  | 0, _, z => .ok z
  | n + 1, i, z =>
    match dimname 32 dims i with
    | .ok _ =>
      match (dims[i]?).bind Dim.var with
      | none => .error
      | some (a, v) =>
        match cart a with
        | .ok c => if c = 'Z' then levels dims n (i + 1) v else levels dims n (i + 1) z
        | .error => .error
        | .broken => .broken
    | .error => .error
    | .broken => .broken

/-- `get_input_vgrid` -/
def vgrid (dims : List Dim) : Res (List ℚ) :=
  match levels dims dims.length 0 [] with
  | .ok [] => .error
  | r => r

end Verif.AxisAtts
