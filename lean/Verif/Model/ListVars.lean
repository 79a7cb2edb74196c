/-
Model of src/list-ncvars/list_ncvars.f90, src/list-ncvars/list_ncvars.sh.in and src/nc-exists/ncexists.c.

The NetCDF library is used by contract: a file is the list of its variables and attributes. The name of a variable is the list
of its characters without the blanks at the end of the Fortran variable (names in NetCDF files do not end in a blank). Where a
program reads outside a variable the model has a parameter for what is there.
-/
namespace Verif.ListVars

/-! ### list_ncvars -/

/-- A variable of a file, list_ncvars.f90 l.68: `dimids` in the order of Fortran, the record dimension last -/
structure Var where
  name : List Char
  isChar : Bool
  dims : List Int
deriving DecidableEq

/-- The namelist without the name of the file, l.33-40 -/
structure Opts where
  nonstatic : Bool
  static : Bool
  var4d : Bool
  var3d : Bool
  var2d : Bool
  var1d : Bool
  var0d : Bool
deriving DecidableEq

/-- What is in memory outside the variables: `before k` is the character `name(-k:-k)` for `k = 0, 1, ...`, and `dim0` is
`dimids(0)` -/
structure Memory where
  before : Nat → Char
  dim0 : Int

/-- `name(nc-k+1:nc)`, l.75-77. For a name shorter than `k` the first characters lie before the variable. -/
def lastChars (m : Memory) (name : List Char) (k : Nat) : List Char :=
  ((List.range (k - name.length)).map m.before).reverse ++ name.drop (name.length - k)

/-- The test of l.76-77 -/
def skipped (m : Memory) (name : List Char) : Bool :=
  lastChars m name 3 = ['_', 'T', '1'] || lastChars m name 3 = ['_', 'T', '2'] || lastChars m name 3 = ['_', 'D', 'T'] ||
    lastChars m name 7 = ['_', 'N', 'I', 'T', 'E', 'M', 'S']

/-- `dimids(ndim)`, l.81 -/
def lastDim (m : Memory) (v : Var) : Int := v.dims.getLast?.getD m.dim0

/-- The body of the loop over the variables, l.66-94: whether the name is written. `recdim` is the identifier of the record
dimension, or `-1` without one. -/
def listed (m : Memory) (recdim : Int) (o : Opts) (v : Var) : Bool :=
  if v.isChar then false
  else if skipped m v.name then false
  else
    let static := !decide (lastDim m v = recdim)
    let ndim : Int := if static then v.dims.length else v.dims.length - 1
    if !o.nonstatic && !static then false
    else if !o.static && static then false
    else if !o.var4d && ndim = 4 then false
    else if !o.var3d && ndim = 3 then false
    else if !o.var2d && ndim = 2 then false
    else if !o.var1d && ndim = 1 then false
    else if !o.var0d && ndim = 0 then false
    else true

/-- The names written, l.66-94. `m` gives the memory at each round of the loop. -/
def listVars (m : Nat → Memory) (recdim : Int) (o : Opts) (vars : List Var) : List (List Char) :=
  (vars.zipIdx.filter fun x => listed (m x.2) recdim o x.1).map (·.1.name)

/-! ### list_ncvars.sh -/

/-- The shell variables `static`, `nonstatic`, `var0d`, ..., `var4d`, list_ncvars.sh.in l.61-67 -/
structure Shell where
  static : String := ".false."
  nonstatic : String := ".false."
  var0d : String := ".false."
  var1d : String := ".false."
  var2d : String := ".false."
  var3d : String := ".false."
  var4d : String := ".false."

/-- How the script ends -/
inductive ShellEnd
  | help
  | version
  | unknown
  | noFile
  | noSuchFile
  | noKind
  | noRank
deriving DecidableEq

/-- The loop over the options, l.69-109; `getopts` by contract: the letters of the options in their order -/
def parse : List Char → Shell → Except ShellEnd Shell
  | [], s => .ok s
  | 's' :: l, s => parse l { s with static := ".true." }
  | 't' :: l, s => parse l { s with nonstatic := ".true." }
  | '0' :: l, s => parse l { s with var0d := ".true." }
  | '1' :: l, s => parse l { s with var1d := ".true." }
  | '2' :: l, s => parse l { s with var2d := ".true." }
  | '3' :: l, s => parse l { s with var3d := ".true." }
  | '4' :: l, s => parse l { s with var4d := ".true." }
  | 'h' :: _, _ => .error .help
  | 'V' :: _, _ => .error .version
  | _ :: _, _ => .error .unknown

/-- The tests of l.127-138, with the words `.false` as they are there -/
def check (s : Shell) : Except ShellEnd Unit :=
  if s.static = ".false" ∧ s.nonstatic = ".false." then .error .noKind
  else if s.var0d = ".false." ∧ s.var1d = ".false." ∧ s.var2d = ".false" ∧ s.var3d = ".false." ∧ s.var4d = ".false" then
    .error .noRank
  else .ok ()

/-- The namelist of l.146-157 as list_ncvars reads it -/
def Shell.opts (s : Shell) : Opts where
  nonstatic := s.nonstatic = ".true."
  static := s.static = ".true."
  var4d := s.var4d = ".true."
  var3d := s.var3d = ".true."
  var2d := s.var2d = ".true."
  var1d := s.var1d = ".true."
  var0d := s.var0d = ".true."

/-- A file as the script sees it: `none` if it does not exist, else the record dimension and the variables -/
abbrev File := Option (Int × List Var)

/-- The script, l.61-164, for names of files without blanks and quotes. The memory is that of each run of list_ncvars. -/
def script (m : Nat → Nat → Memory) (options : List Char) (files : List File) : Except ShellEnd (List (List Char)) := do
  let s ← parse options {}
  if files = [] then .error .noFile
  if files.any (·.isNone) then .error .noSuchFile
  check s
  .ok (files.zipIdx.flatMap fun f => match f.1 with
    | none => []
    | some (recdim, vars) => listVars (m f.2) recdim s.opts vars)

/-! ### ncexists -/

/-- Options as `getopt_long` gives them (by contract), ncexists.c l.82-90 -/
inductive Arg
  | filename (s : String)
  | globalAtt (s : String)
  | varName (s : String)
  | varAtt (s : String)
  | help
  | version
  | bad
deriving DecidableEq

/-- `filename`, `gattr` (with `global`), `var_name`, `attr`, l.70-78. `global` is 1 exactly if `gattr` is set. -/
structure Args where
  filename : Option String := none
  gattr : Option String := none
  var : Option String := none
  attr : Option String := none
deriving DecidableEq

/-- What the program does: print `1` or `0`, or end before -/
inductive Result
  | one
  | zero
  | helpOk
  | versionOk
  | usage
  | noFilename
  | nothingAsked
  | notReadable
  | notNetcdf
deriving DecidableEq

/-- The loop over the options, l.99-139 -/
def parseArgs : List Arg → Args → Except Result Args
  | [], s => .ok s
  | .filename x :: l, s => parseArgs l { s with filename := some x }
  | .globalAtt x :: l, s => parseArgs l { s with gattr := some x }
  | .varName x :: l, s => parseArgs l { s with var := some x }
  | .varAtt x :: l, s => parseArgs l { s with attr := some x }
  | .help :: _, _ => .error .helpOk
  | .version :: _, _ => .error .versionOk
  | .bad :: _, _ => .error .usage

/-- Contents of a NetCDF file: names of global attributes; variables with the names of their attributes -/
structure Nc where
  atts : List String
  vars : List (String × List String)

/-- What the file system has under a name: nothing readable, a file of another kind, a NetCDF file -/
inductive Disk
  | none
  | other
  | nc (f : Nc)

/-- `main`, l.66-215 -/
def ncexists (disk : String → Disk) (args : List Arg) : Result :=
  if args = [] then .usage
  else match parseArgs args {} with
    | .error r => r
    | .ok s =>
      match s.filename with
      | none => .noFilename
      | some fn =>
        if s.var = none ∧ s.gattr = none then .nothingAsked
        else match disk fn with
          | .none => .notReadable
          | .other => .notNetcdf
          | .nc f =>
            match s.gattr with
            | some g => if f.atts.contains g then .one else .zero
            | none =>
              match f.vars.find? (fun v => some v.1 = s.var) with
              | none => .zero
              | some v =>
                match s.attr with
                | none => .one
                | some a => if v.2.contains a then .one else .zero

end Verif.ListVars
