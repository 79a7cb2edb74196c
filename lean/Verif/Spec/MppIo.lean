/-
Specification for the input and output layer: what a handle stands for, and what compression is wanted.
-/
import Verif.Model.MppIo
namespace Verif.Spec.MppIo
open Verif.MppIo

/-- The pair of handles `fid`, `v` stands for the variable `name` of the file: the table has an id for it, and the variable with that id in the
file has this name and the type in the table -/
def Denotes (s : State) (fid v : Nat) (name : Name) : Prop :=
  ∃ e slot f x, s.files[fid]? = some e ∧ e.vars[v]? = some slot ∧ s.disk (path e.name) = some f ∧ f.vars[slot.fldid]? = some x ∧
    x.name = name ∧ x.type = slot.type

/-- The names of the variables in a file differ (a rule of the NetCDF library) -/
def Names (disk : Name → Option Nc) : Prop := ∀ p f, disk p = some f → (f.vars.map (·.name)).Nodup

/-- The call does not replace a file that the table knows, and nobody else changes a file -/
def Fresh (s : State) : Op → Prop
  | .other _ _ => False
  | .open file .write => ∀ e ∈ s.files, path e.name ≠ path file
  | _ => True

/-- All calls of a history are `Fresh` -/
def Quiet (root : Bool) : State → List Op → Prop
  | _, [] => True
  | s, o :: ops => Fresh s o ∧ ∀ s', step root s o = .ok s' → Quiet root s' ops

/-- The call opens no file for reading and nobody else changes a file -/
def NoRead : Op → Prop
  | .other _ _ => False
  | .open _ .read => False
  | _ => True

/-- The format of the file at a path -/
def formatAt (s : State) (p : Name) : Option Nat := (s.disk p).map (·.format)

/-- The formats by name (documentation of `--format`) -/
def formatOf (option : String) : Option Nat :=
  [("netcdf4", 3), ("netcdf4_classic", 4), ("64bit_offset", 2), ("classic", 1)].lookup option

/-- The variable `name` of a file -/
def lookupVar (f : Nc) (name : Name) : Option Var := f.vars.find? (fun v => v.name == name)

/-- How strongly a variable is compressed, 0 if it is not -/
def strength (c : Comp) : Int := c.level.getD 0

/-- The documented settings: those of the user; where the user gave none (-1), those of the variable of that name in the input file; the settings
stay as they were if there is no such variable -/
def Wanted (userDeflation userShuffle : Int) (input : Option Var) (old new : Comp) : Prop :=
  (strength new = if userDeflation = -1 then (match input with | some v => strength v.comp | none => strength old) else userDeflation) ∧
  (new.shuffle = if userShuffle = -1 then (match input with | some v => v.comp.shuffle | none => old.shuffle) else userShuffle)

/-- Every level in the file is one that the library takes -/
def Levels (f : Nc) : Prop := ∀ v ∈ f.vars, ∀ l, v.comp.level = some l → 1 ≤ l ∧ l ≤ 9

end Verif.Spec.MppIo
