/-
The input and output layer of lib/libfrencutils/mpp_io.c: the table of files (29-52), `mpp_open` (80-206), `mpp_close` (209-232),
`mpp_get_varname` (251-265), `mpp_get_varid` (331-366), `mpp_def_var` (877-915), `mpp_set_deflation` (1033-1098), `mpp_var_exist` (1483-1497),
`set_in_format` (1526-1544), `reset_in_format` (1551-1562), and the way fregrid chooses the format of its output
(src/fre-grid/fregrid.c 839-844 and 911-920).

Simplifications. The NetCDF library is given by contract: a file is a format and the list of its variables in the order of their ids, names
in one file differ, an id is looked up by name, `nc_create` empties the file, `nc_def_var` appends and refuses a name in use.
An open file is looked up by its path at every call. Of a variable only the name, the type and the compression are kept: dimensions,
attributes, values and the difference between define mode and data mode are left out. The build is the one without `use_netCDF3` and
`use_netCDF4`. `NC_BLKSZ` (88-115) has no effect here. A name that does not fit its buffer is undefined behaviour: 255 characters for a path
(`STRING`), 128 for a variable in the table, 64 for a variable in `mpp_set_deflation`.
-/
namespace Verif.MppIo

/-- A name of a file or a variable -/
abbrev Name := List Char

/-- How a run ends early: with a message, or by reading outside an array -/
inductive Err where
  | stop
  | ub
deriving DecidableEq, Repr

/-- `MPP_WRITE`, `MPP_READ`, `MPP_APPEND` (mpp_io.h 32-34) -/
inductive Action where
  | write
  | read
  | append
deriving DecidableEq, Repr

/-- The shuffle flag and, if the filter is on, the level (`nc_inq_var_deflate`) -/
structure Comp where
  shuffle : Int
  level : Option Int
deriving DecidableEq, Repr

/-- A variable in a NetCDF file -/
structure Var where
  name : Name
  type : Nat
  comp : Comp
deriving DecidableEq, Repr

/-- A NetCDF file; a variable's id is its place in the list. Formats as in netcdf.h: 1 classic, 2 64 bit offset, 3 netCDF-4,
4 netCDF-4 classic, 5 64 bit data -/
structure Nc where
  format : Nat
  vars : List Var
deriving DecidableEq, Repr

/-- `VarType` (mpp_io.c 34-38) -/
structure Slot where
  fldid : Nat
  type : Nat
  name : Name
deriving DecidableEq, Repr

/-- `FileType` (mpp_io.c 40-47); `nvar` is the length of the list -/
structure Ent where
  name : Name
  action : Action
  status : Bool
  vars : List Slot
deriving DecidableEq, Repr

/-- The table `files`, the global `in_format` and the file system -/
structure State where
  files : List Ent
  inFormat : Nat
  disk : Name → Option Nc

/-- The state when a program starts; `in_format` is `NC_FORMAT_NETCDF4_CLASSIC` (mpp_io.c 52) -/
def start (disk : Name → Option Nc) : State := ⟨[], 4, disk⟩

/-- `strstr(s, ".nc") != NULL` -/
def hasNc : Name → Bool
  | [] => false
  | c :: s => ['.', 'n', 'c'].isPrefixOf (c :: s) || hasNc s

/-- The path that is opened (mpp_io.c 119-120) -/
def path (file : Name) : Name := if hasNc file then file else file ++ ['.', 'n', 'c']

/-- Replace one file -/
def setDisk (d : Name → Option Nc) (p : Name) (f : Nc) : Name → Option Nc := fun q => if q = p then some f else d q

/-- `nc_inq_varid` -/
def varNamed (f : Nc) (name : Name) : Option Nat := f.vars.findIdx? (fun v => v.name == name)

/-- The formats `mpp_open` can create (mpp_io.c 163-179) and `reset_in_format` takes (1554-1555) -/
def creatable (f : Nat) : Bool := f == 1 || f == 2 || f == 3 || f == 4

/-- `mpp_open`, the part that talks to the library (mpp_io.c 152-201): entry `fid` becomes open -/
def openAt (s : State) (files : List Ent) (fid : Nat) (file : Name) (action : Action) : Except Err (State × Int) :=
  let files' := files.modify fid (fun e => { e with status := true, action := action })
  match action with
  | .write => if creatable s.inFormat then .ok (⟨files', s.inFormat, setDisk s.disk (path file) ⟨s.inFormat, []⟩⟩, fid) else .error .stop
  | .append => match s.disk (path file) with
    | none => .error .stop
    | some _ => .ok (⟨files', s.inFormat, s.disk⟩, fid)
  | .read => match s.disk (path file) with
    | none => .error .stop
    | some f => .ok (⟨files', f.format, s.disk⟩, fid)

/-- `mpp_open` (mpp_io.c 80-206) -/
def mppOpen (root : Bool) (s : State) (file : Name) (action : Action) : Except Err (State × Int) :=
  if action ≠ .read ∧ root = false then .ok (s, -1)
  else if 255 ≤ (path file).length then .error .ub
  else match s.files.findIdx? (fun e => e.name == file && e.action == action) with
    | some n =>
      if action = .write then .error .stop
      else if (s.files[n]?.map (·.status)) = some true then .error .stop
      else openAt s s.files n file action
    | none =>
      if s.files.length + 1 > 200 then .error .stop
      else openAt s (s.files ++ [⟨file, action, false, []⟩]) s.files.length file action

/-- `mpp_close` (mpp_io.c 209-232). A closed file has id 0, which the library refuses -/
def mppClose (root : Bool) (s : State) (fid : Int) : Except Err State :=
  if fid = -1 ∧ root = false then .ok s
  else if fid < 0 then .error .stop
  else match s.files[fid.toNat]? with
    | none => .error .stop
    | some e => if e.status then .ok { s with files := s.files.modify fid.toNat (fun e => { e with status := false }) } else .error .stop

/-- `mpp_get_varid` for an entry of the table (mpp_io.c 345-366) -/
def varidAt (s : State) (fid : Nat) (e : Ent) (name : Name) : Except Err (State × Int) :=
  match e.vars.findIdx? (fun v => v.name == name) with
  | some n => .ok (s, n)
  | none =>
    if e.vars.length + 1 > 1024 then .error .stop
    else if e.status = false then .error .stop
    else match s.disk (path e.name) with
      | none => .error .stop
      | some f => match varNamed f name with
        | none => .error .stop
        | some k => if 128 ≤ name.length then .error .ub else .ok ({ s with files := s.files.modify fid (fun e =>
            { e with vars := e.vars ++ [⟨k, ((f.vars[k]?).map (·.type)).getD 0, name⟩] }) }, e.vars.length)

/-- `mpp_get_varid` (mpp_io.c 331-366). The action is read before the index is checked (l.338); entries of the static array beyond `nfiles`
are zero, and zero is not `MPP_READ` -/
def getVarid (root : Bool) (s : State) (fid : Int) (name : Name) : Except Err (State × Int) :=
  if fid < 0 ∨ 200 ≤ fid then .error .ub
  else match s.files[fid.toNat]? with
    | none => if root then .error .stop else .ok (s, -1)
    | some e => if e.action ≠ .read ∧ root = false then .ok (s, -1) else varidAt s fid.toNat e name

/-- `mpp_def_var` (mpp_io.c 877-915); the library refuses it in a file opened for reading -/
def defVar (root : Bool) (s : State) (fid : Int) (name : Name) (type : Nat) : Except Err (State × Int) :=
  if root = false then .ok (s, 0)
  else if fid < 0 then .error .stop
  else match s.files[fid.toNat]? with
    | none => .error .stop
    | some e =>
      if e.status = false ∨ e.action = .read then .error .stop
      else match s.disk (path e.name) with
        | none => .error .stop
        | some f => match varNamed f name with
          | some _ => .error .stop
          | none =>
            if e.vars.length + 1 > 1024 then .error .stop
            else if 128 ≤ name.length then .error .ub
            else .ok (⟨s.files.modify fid.toNat (fun e => { e with vars := e.vars ++ [⟨f.vars.length, type, name⟩] }), s.inFormat,
              setDisk s.disk (path e.name) { f with vars := f.vars ++ [⟨name, type, ⟨0, none⟩⟩] }⟩, e.vars.length)

/-- `set_in_format` (mpp_io.c 1526-1544) with an option that was given -/
def setInFormat (s : State) (format : String) : Except Err State :=
  if format = "netcdf4" then .ok { s with inFormat := 3 }
  else if format = "netcdf4_classic" then .ok { s with inFormat := 4 }
  else if format = "64bit_offset" then .ok { s with inFormat := 2 }
  else if format = "classic" then .ok { s with inFormat := 1 }
  else .error .stop

/-- `reset_in_format` (mpp_io.c 1551-1562) -/
def resetInFormat (s : State) (format : Nat) : Except Err State :=
  if creatable format then .ok { s with inFormat := format } else .error .stop

/-- One call of the layer, or a change of a file by someone else -/
inductive Op where
  | open (file : Name) (action : Action)
  | close (fid : Int)
  | varid (fid : Int) (name : Name)
  | defVar (fid : Int) (name : Name) (type : Nat)
  | other (p : Name) (f : Nc)

/-- The effect of one call -/
def step (root : Bool) (s : State) : Op → Except Err State
  | .open file action => (mppOpen root s file action).map (·.1)
  | .close fid => mppClose root s fid
  | .varid fid name => (getVarid root s fid name).map (·.1)
  | .defVar fid name type => (defVar root s fid name type).map (·.1)
  | .other p f => .ok { s with disk := setDisk s.disk p f }

/-- A history of calls -/
def run (root : Bool) (s : State) : List Op → Except Err State
  | [] => .ok s
  | o :: ops => match step root s o with
    | .error e => .error e
    | .ok s' => run root s' ops

/-- Open the input files of fregrid in order (fregrid.c 840-844); the format of the first is kept -/
def openInputs (root : Bool) (s : State) : List Name → Option Nat → Except Err (State × Option Nat)
  | [], k => .ok (s, k)
  | f :: fs, k => match mppOpen root s f .read with
    | .error e => .error e
    | .ok (s', _) => openInputs root s' fs (some (k.getD s'.inFormat))

/-- The choice of the format in fregrid (fregrid.c 911-920) -/
def chooseFormat (s : State) (option : Option String) (first : Option Nat) : Except Err State :=
  match option with
  | some f => setInFormat s f
  | none => match first with
    | some k => resetInFormat s k
    | none => .ok s

/-- fregrid from the opening of its input to the metadata of its output: the input files, other calls (`get_input_metadata`, `set_weight_inf`),
the format, the calls that write -/
def fregridFiles (root : Bool) (s : State) (option : Option String) (inputs : List Name) (between after : List Op) : Except Err State :=
  match openInputs root s inputs none with
  | .error e => .error e
  | .ok (s₁, k) => match run root s₁ between with
    | .error e => .error e
    | .ok s₂ => match chooseFormat s₂ option k with
      | .error e => .error e
      | .ok s₃ => run root s₃ after

/-- `nc_def_var_deflate(ncid, fldid, shuffle, level, level)`: refused for files that are not netCDF-4 and for levels out of range -/
def setComp (s : State) (p : Name) (fldid : Nat) (shuffle level : Int) : Except Err State :=
  match s.disk p with
  | none => .error .stop
  | some f =>
    if f.format ≠ 3 ∧ f.format ≠ 4 then .error .stop
    else if level < 0 ∨ 9 < level then .error .stop
    else .ok { s with disk := setDisk s.disk p ⟨f.format, f.vars.modify fldid (fun v =>
        { v with comp := ⟨shuffle, if level = 0 then none else some level⟩ })⟩ }

/-- The lookup in the input file (mpp_io.c 1064-1082): the settings to use and the new content of `deflation_in`, which the library leaves alone
when the filter of the input variable is off -/
def lookup (root : Bool) (s : State) (fidIn : Int) (fin : Nc) (name : Name) (stale : Option Int) (userDeflation userShuffle : Int) :
    Except Err (State × Int × Int × Option Int) :=
  match getVarid root s fidIn name with
  | .error e => .error e
  | .ok (s', vid) =>
    match ((s'.files[fidIn.toNat]?).bind (fun e => e.vars[vid.toNat]?)).bind (fun v => fin.vars[v.fldid]?) with
    | none => .error .stop
    | some v =>
      let stale' := match v.comp.level with
        | some l => some l
        | none => stale
      match (if userDeflation = -1 then stale' else some userDeflation) with
      | none => .error .ub
      | some l => .ok (s', if userShuffle = -1 then v.comp.shuffle else userShuffle, l, stale')

/-- One pass of the loop over the output variables (mpp_io.c 1055-1097) -/
def deflOne (root : Bool) (fidIn : Int) (fidOut : Nat) (pin pout : Name) (userDeflation userShuffle : Int) (s : State) (stale : Option Int) (vid : Nat) :
    Except Err (State × Option Int) :=
  match s.disk pin, (s.disk pout).bind (fun f => f.vars[vid]?), (s.files[fidOut]?).bind (fun e => e.vars[vid]?) with
  | some fin, some v, some slot =>
    if userDeflation = -1 ∨ userShuffle = -1 then
      if 64 ≤ v.name.length then .error .ub
      else if (varNamed fin v.name).isNone then .ok (s, stale)
      else match lookup root s fidIn fin v.name stale userDeflation userShuffle with
        | .error e => .error e
        | .ok (s', sh, l, stale') => match setComp s' pout slot.fldid sh l with
          | .error e => .error e
          | .ok s'' => .ok (s'', stale')
    else match setComp s pout slot.fldid userShuffle userDeflation with
      | .error e => .error e
      | .ok s' => .ok (s', stale)
  | _, _, _ => .error .stop

/-- The loop over the output variables -/
def deflLoop (root : Bool) (fidIn : Int) (fidOut : Nat) (pin pout : Name) (userDeflation userShuffle : Int) :
    List Nat → State → Option Int → Except Err State
  | [], s, _ => .ok s
  | vid :: vids, s, stale => match deflOne root fidIn fidOut pin pout userDeflation userShuffle s stale vid with
    | .error e => .error e
    | .ok (s', stale') => deflLoop root fidIn fidOut pin pout userDeflation userShuffle vids s' stale'

/-- `mpp_set_deflation` (mpp_io.c 1033-1098) for two open files of the table; `deflation_in` starts without a value -/
def setDeflation (root : Bool) (s : State) (fidIn fidOut : Nat) (userDeflation userShuffle : Int) : Except Err State :=
  if userDeflation = 0 then .ok s
  else match s.files[fidIn]?, s.files[fidOut]? with
    | some ein, some eout => match s.disk (path ein.name) with
      | none => .error .stop
      | some fin =>
        if fin.format = 1 ∨ fin.format = 2 then .ok s
        else deflLoop root fidIn fidOut (path ein.name) (path eout.name) userDeflation userShuffle (List.range eout.vars.length) s none
    | _, _ => .error .stop

end Verif.MppIo
