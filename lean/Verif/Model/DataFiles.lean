import Mathlib.Data.List.Basic
/-
Names of the data files of fregrid: /repo/src/fre-grid/fregrid_util.c `set_mosaic_data_file` 57-98, /repo/src/fre-grid/fregrid.c 633-636 (default), 823-836.

Simplifications: strings are lists of characters (no NUL); `STRING` is 255, also the length of the array `name` of a file. The names of the tiles are given; more than one tile only with a mosaic
file (else `error`). `broken`: a byte before a string is read, or an array is written beyond its end.
-/
namespace Verif.DataFiles

abbrev Str := List Char

inductive Names where
  | ok (l : List Str)
  | error
  | broken
deriving DecidableEq

def nc : Str := ['.', 'n', 'c']

/-- 64-68: `str1` -/
def base (file : Str) : Option Str :=
  if file.length < 3 then none
  else if file.drop (file.length - 3) = nc then (if file.length - 3 < 255 then some (file.take (file.length - 3)) else none)
  else if file.length < 255 then some file else none

/-- 69-75: `str2`; the second case is an error -/
def withDir (dir : Option Str) (s : Str) : Option (Option Str) :=
  match dir with
  | none => some (some s)
  | some d =>
    if 255 ≤ d.length + s.length then some none
    else if d.length + 1 + s.length < 255 then some (some (d ++ '/' :: s)) else none

/-- 85-96: the files of the tiles -/
def perTile (s : Str) : List Str → Names
  | [] => .ok []
  | t :: ts =>
    if 255 - 5 < s.length + t.length then .error
    else match perTile s ts with
      | .ok l => .ok ((s ++ '.' :: (t ++ nc)) :: l)
      | r => r

/-- 57-98 -/
def names (mosaic : Bool) (dir : Option Str) (tiles : List Str) (file : Str) : Names :=
  match base file with
  | none => .broken
  | some s1 =>
    match withDir dir s1 with
    | none => .broken
    | some none => .error
    | some (some s) =>
      if 1 < tiles.length then (if mosaic then perTile s tiles else .error)
      else if s.length + 3 < 255 then .ok (tiles.map fun _ => s ++ nc) else .broken

/-- fregrid.c 633-636, 823-824: names of input and output files -/
def inOut (mosaicOut : Bool) (dirIn dirOut : Option Str) (tilesIn tilesOut : List Str) (fileIn : Str) (fileOut : Option Str) : Names × Names :=
  (names true dirIn tilesIn fileIn, names mosaicOut dirOut tilesOut (match fileOut with | some f => f | none => fileIn))

end Verif.DataFiles
