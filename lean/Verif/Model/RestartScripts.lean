/-
Model of src/iceberg-comb/iceberg_comb.sh.in and of the namelist file of src/plevel/plevel.sh.in.

Names of files have no blanks. ncdump, ncrcat, ncatted and cp are used by contract: ncdump prints the attributes, ncrcat
writes the records of its inputs one after the other with the global attributes of the first, ncatted deletes an attribute, and
none of them fails on the files they are given here. The commands are in the path.
-/
namespace Verif.RestartScripts

/-! ### iceberg_comb.sh -/

/-- A NetCDF file: the global attributes `file_format_major_version`, `file_format_minor_version` and `NumFilesInSet`, where they
are numbers without sign, and the records -/
structure Nc (R : Type) where
  major : Option Nat
  minor : Option Nat
  numFiles : Option Nat
  records : List R

/-- What is under a name: nothing, a file that ncdump does not read, a NetCDF file -/
inductive Entry (R : Type)
  | absent
  | other
  | nc (f : Nc R)

variable {R : Type}

/-- `checkValidFileVersion`, l.92-114 -/
def validVersion (f : Nc R) : Bool :=
  let major : Int := match f.major with
    | some k => k
    | none => -1
  let minor : Int := match f.minor with
    | some k => k
    | none => -1
  major > 0 || (major = 0 && minor ≥ 1)

/-- `get_NumFilesInSet`, l.78-90 -/
def numFilesInSet (f : Nc R) : Int := match f.numFiles with
  | some k => k
  | none => -1

/-- `checkIfIcebergs`, l.116-136 -/
def isIcebergs : Entry R → Bool
  | .nc f => validVersion f && decide (numFilesInSet f > 0)
  | _ => false

inductive Err
  | arguments
  | notIcebergs
  | inconsistent
  | number
  | outputExists
deriving DecidableEq

/-- The loop over the other files, l.297-304: whether all have the number of the first -/
def consistent (disk : String → Entry R) (n0 : Int) (files : List String) : Bool :=
  files.all fun f => match disk f with
    | .nc g => decide (numFilesInSet g = n0)
    | _ => decide (n0 = -1)

/-- The files with records, l.327-331 (`has_icebergs`, l.140-156) -/
def nonempty (disk : String → Entry R) (files : List String) : List (Nc R) :=
  files.filterMap fun f => match disk f with
    | .nc g => if g.records.isEmpty then none else some g
    | _ => none

/-- `iceberg_comb.sh args` without options, l.246-380: the file written -/
def combine (disk : String → Entry R) (args : List String) : Except Err (Nc R) :=
  if args.length < 3 then .error .arguments
  else match args.dropLast, args.getLast? with
    | first :: rest, some out =>
      -- l.263-284; a file that does not exist is an error as well
      if (first :: rest).any fun f => !isIcebergs (disk f) then .error .notIcebergs
      else match disk first with
        | .nc f0 =>
          let n0 := numFilesInSet f0
          if !consistent disk n0 rest then .error .inconsistent
          else if n0 ≠ (first :: rest).length then .error .number
          else match disk out with
            | .absent =>
              match nonempty disk (first :: rest) with
              | g :: gs => .ok { g with records := ((g :: gs).map (·.records)).flatten, numFiles := none }
              | [] => .ok { f0 with numFiles := none }
            | _ => .error .outputExists
        | _ => .error .notIcebergs
    | _, _ => .error .arguments

/-! ### plevel.sh -/

/-- The file `plev.input.nml` in the directory: the groups `&input` in it, one after the other. `G` is the contents of a group,
which follows from the options of the call (plevel.sh.in l.175-230). -/
abbrev Namelist (G : Type) := List G

/-- What is left after a call, and what the call did -/
structure Call (G : Type) where
  /-- the group that the program has read -/
  used : Option G
  status : Nat
  left : Namelist G

/-- One call with options that give the group `g`, l.175-241: the group is appended to the file (`>>`, l.178); the program reads
the first group (run_pressure_interp.F90 l.285-290); the file is removed only if the program succeeds. `ok` says whether it
succeeds with a group. The last command is `rm` or `echoerr`, so the status is 0. -/
def call {G : Type} (ok : G → Bool) (file : Namelist G) (g : G) : Call G :=
  let file := file ++ [g]
  match file with
  | [] => ⟨none, 0, file⟩
  | used :: _ => if ok used then ⟨some used, 0, []⟩ else ⟨some used, 0, file⟩

/-- Calls in one directory one after the other: what each did. `ok n` is the behaviour of the program at call `n`. -/
def history {G : Type} (ok : Nat → G → Bool) : Nat → Namelist G → List G → List (Call G)
  | _, _, [] => []
  | n, file, g :: gs => call (ok n) file g :: history ok (n + 1) (call (ok n) file g).left gs

end Verif.RestartScripts
