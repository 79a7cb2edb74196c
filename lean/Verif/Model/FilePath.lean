import Mathlib.Data.List.Basic
/-
Names of files that belong to a mosaic: /repo/lib/libfrencutils/tool_util.c `get_file_path` 50-73 (`get_file_dir` of read_mosaic.c 42-65 is the same), its use in
/repo/src/fre-grid/fregrid_util.c 165, 186-192 and 422, 471-478 (arrays of 256 bytes), and /repo/src/make-coupler-mosaic/make_coupler_mosaic.c `get_file_dir_and_name` 161-179,
378-382, 516-520, 3758-3788.

Simplifications: bytes are `Char`; an array is the list of its bytes, with what it held before; to write or to read beyond its end gives `none`.
-/
namespace Verif.FilePath

abbrev Word := List Char

def nul : Char := Char.ofNat 0

/-- Bytes written at the start of an array. -/
def store (mem w : Word) : Option Word := if w.length ≤ mem.length then some (w ++ mem.drop w.length) else none

/-- The text in an array, up to the first zero byte. -/
def text (mem : Word) : Option Word := if nul ∈ mem then some (mem.takeWhile (· ≠ nul)) else none

/-- `strrchr(file, '/')` -/
def lastSlash : Word → Option Nat
  | [] => none
  | c :: cs =>
    match lastSlash cs with
    | some k => some (k + 1)
    | none => if c = '/' then some 0 else none

/-- tool_util.c 62-71: `strncpy` of the bytes before the slash, or `.`; a zero byte behind. -/
def getFilePath (file mem : Word) : Option Word :=
  match lastSlash file with
  | some k => store mem (file.take k ++ [nul])
  | none => store mem ['.', nul]

/-- fregrid_util.c 186-191: `get_file_path(mosaic_file, dir)`, `sprintf(grid_file, "%s/%s", dir, filename)`; the name with which `grid_file` is opened. -/
def gridFile (file name dirMem outMem : Word) : Option Word :=
  match getFilePath file dirMem with
  | none => none
  | some m =>
    match text m with
    | none => none
    | some d =>
      match store outMem (d ++ '/' :: (name ++ [nul])) with
      | none => none
      | some o => text o

/-- make_coupler_mosaic.c 161-179: the arrays `filedir` and `filename`. `strncpy` of `siz` bytes writes no zero byte. -/
def dirAndName (file dirMem nameMem : Word) : Option (Word × Word) :=
  match lastSlash file with
  | none =>
    match store nameMem (file ++ [nul]), store dirMem ['.', '/', nul] with
    | some n, some d => some (d, n)
    | _, _ => none
  | some k =>
    match store nameMem (file.drop (k + 1) ++ [nul]), store dirMem (file.take (k + 1)) with
    | some n, some d => some (d, n)
    | _, _ => none

end Verif.FilePath
