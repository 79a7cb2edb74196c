import Verif.Model.Compress
/-
Model of decompress-ncc for one variable.

Source: /repo/src/land_utils/decompress-ncc.F90 171-212.

Simplifications: the netCDF calls succeed; the definition of dimensions, variables and attributes
(94-153) and the growing of the record dimension (160-168) are not modelled. `vsize` is the size of the
output variable; `missing` is the value found in 186-201; `ocean` is the attribute `ocean_fillvalue`
(181-183).
-/
namespace Verif.Decompress
open Compress

/-- A variable in an input file. -/
structure Input (α : Type) where
  dims : List CDim
  buffer : List α

/-- One file (206): data and mask are carried on. -/
def readFile {α : Type} (ocean : Option α) (s : List α × List Bool) (f : Input α) :
    Option (List α × List Bool) :=
  getCompressed f.dims f.buffer ocean s.1 s.2

/-- The values written to the output variable. -/
def decompress {α : Type} (vsize : Nat) (missing : α) (ocean : Option α) (files : List (Input α)) :
    Option (List α) :=
  (files.foldlM (readFile ocean) (List.replicate vsize missing, List.replicate vsize false)).map (·.1)

end Verif.Decompress
