/-
Model of the part of `main` of mppnccombine that selects the input files, keeps the error flags,
decides the exit status and removes the inputs.

Source: /repo/src/mpp-nccombine/mppnccombine.c, lines 255-285 (variables), 472-732 (the three ways of
selecting input files) and 734-800 (status and removal).

Simplifications
* `process_file` and `flush_decomp` are abstract: the environment says which error codes they return
  and which value `process_file` leaves in `nfiles` (their effect on the data is modelled in
  `Model.Combine`).
* the files on disk do not change while the program runs, except for the final removal;
* the number of blocks is a parameter (`process_file` sets it; the body runs at least once);
* the early exit of the dry run (`-x`) is not modelled.
-/
namespace Verif.Driver

/-- What one call of `process_file` does, as far as `main` can see.
mppnccombine.c 914-1270: `early` is one of the `return (1)` before the record loop, `recErrs` the codes
returned by `process_vars` for the records of the block (1250-1253), `nfiles` the value left in the
`nfiles` argument. -/
structure ProcRes where
  early : Bool
  recErrs : List Bool
  nfiles : Int

/-- The surroundings of one run; `F` is the type of file names. -/
structure Env (F : Type) where
  /-- `stat (name) == 0` -/
  onDisk : F → Bool
  /-- `sprintf ("%s.%0*d", outfilename, width, a)` -/
  name : Nat → Int → F
  /-- the `-f` option: go on although an input file is missing -/
  force : Bool
  /-- `process_file`, given block, file name, position `f` and the current `nfiles` -/
  proc : Nat → F → Nat → Int → ProcRes
  /-- the codes of the `flush_decomp` calls of one flush (one per record of the block) -/
  flush : Nat → List Bool
  /-- `ncsync`, `ncclose` of the output fail (735-738) -/
  syncErr : Bool
  closeErr : Bool

/-- Things that happened. `proc b x rc failed`: in block `b` file `x` was handed to `process_file`,
which returned `rc`; `failed` tells whether any error occurred inside. `flush failed`: one call of
`flush_decomp`. -/
inductive Event (F : Type) where
  | proc (b : Nat) (x : F) (rc : UInt8) (failed : Bool)
  | flush (failed : Bool)
  deriving DecidableEq

/-- 8-bit addition of error codes: `unsigned char ncinfileerror += ...` (930, 1250) and
`unsigned char outfileerrors += ...` (274, 548, 647, 716). -/
def addErrs (e : UInt8) : List Bool → UInt8
  | [] => e
  | c :: cs => addErrs (if c then e + 1 else e) cs

/-- The value returned by `process_file` (early `return (1)`, or 1269). -/
def ProcRes.rc (r : ProcRes) : UInt8 := if r.early then 1 else addErrs 0 r.recErrs

/-- Whether anything went wrong in the call. -/
def ProcRes.failed (r : ProcRes) : Bool := r.early || r.recErrs.any id

/-- Variables of `main`: `peWidth` (`none` is -1), `nfiles`, `f`, `infileerrors`, `outfileerrors`,
`num_infiles_used`, and the history. Lines 262-283. -/
structure DSt (F : Type) where
  width : Option Nat
  nfiles : Int
  f : Nat
  infileErr : Bool
  outErrs : UInt8
  used : Nat
  trace : List (Event F)

/-- Initial values (262-283). -/
def DSt.init {F : Type} : DSt F :=
  { width := none, nfiles := -1, f := 0, infileErr := false, outErrs := 0, used := 0, trace := [] }

variable {F : Type}

/-- 483-504 (also 587-608, 755-776): which digit width do the file names have?
`none` is the `continue`. -/
def findWidth (E : Env F) (width : Option Nat) (a : Int) : Option Nat :=
  match width with
  | some w => some w
  | none =>
    if E.onDisk (E.name 4 a) then some 4
    else if E.onDisk (E.name 6 a) then some 6
    else none

/-- The call of `process_file` and the updates after it: 529-536, 630-636 / 700-707 (without the
assignment to `nend`). On a file that does not exist `process_file` cannot open it and returns 1
(944-949). -/
def callProc (E : Env F) (b : Nat) (x : F) (st : DSt F) : DSt F :=
  let r := if E.onDisk x then E.proc b x st.f st.nfiles
    else { early := true, recErrs := [], nfiles := st.nfiles }
  { st with
    nfiles := r.nfiles
    infileErr := st.infileErr || r.rc != 0
    f := st.f + 1
    trace := Event.proc b x r.rc r.failed :: st.trace }

/-- Missing file without `-f`: `return 9`; with `-f`: `infileerrors = 1`; then `process_file`.
505-536, 609-636, 684-707. -/
def handleFile (E : Env F) (b : Nat) (x : F) (st : DSt F) : Except Nat (DSt F) :=
  if E.onDisk x then .ok (callProc E b x st)
  else if E.force then .ok (callProc E b x { st with infileErr := true })
  else .error 9

/-- One round of the numbered-file loops up to `f++`; `none` is `continue` (483-536, 587-638). -/
def oneFile (E : Env F) (b : Nat) (a : Int) (st : DSt F) : Except Nat (Option (DSt F)) :=
  match findWidth E st.width a with
  | none => .ok none
  | some w => (handleFile E b (E.name w a) { st with width := some w }).map some

/-- The flush loop (546-549, 645-648, 714-717). -/
def doFlush (E : Env F) (b : Nat) (st : DSt F) : DSt F :=
  { st with
    outErrs := addErrs st.outErrs (E.flush b)
    trace := ((E.flush b).map Event.flush).reverse ++ st.trace }

/-- The numbers `lo, lo+1, ..., hi-1`. -/
def numbers (lo hi : Int) : List Int := (List.range (hi - lo).toNat).map fun (i : Nat) => lo + (i : Int)

/-! ### Range given with `-n` and `-e` (475-570) -/

/-- The loop over `a` of one block (481-553); the list holds the remaining values of `a`. -/
def rangeLoop (E : Env F) (b : Nat) : List Int → DSt F → Except Nat (DSt F)
  | [], st => .ok st
  | a :: rest, st =>
    match oneFile E b a st with
    | .error e => .error e
    | .ok none => rangeLoop E b rest st
    | .ok (some st') =>
      if (st'.f : Int) = st'.nfiles ∨ rest = [] then
        let s := doFlush E b st'
        .ok { s with used := s.f }
      else rangeLoop E b rest st'

/-- The loop over blocks (476-570): `exit (1)` when no file was used. -/
def rangeBlocks (E : Env F) (nstart nend : Int) : List Nat → DSt F → Except Nat (DSt F)
  | [], st => .ok st
  | b :: bs, st =>
    match rangeLoop E b (numbers nstart (nend + 1)) { st with f := 0 } with
    | .error e => .error e
    | .ok st' => if st'.used = 0 then .error 1 else rangeBlocks E nstart nend bs st'

/-! ### No `-e`: the number of files is taken from the first file (571-667) -/

/-- End of one round (639-651). -/
def noEndFlush (E : Env F) (b : Nat) (a nend : Int) (st : DSt F) : DSt F :=
  if (st.f : Int) = st.nfiles ∨ a = nend - 1 then { doFlush E b st with f := 0 } else st

/-- The rounds after the first. -/
def noEndRest (E : Env F) (b : Nat) (nend : Int) : List Int → DSt F → Except Nat (DSt F)
  | [], st => .ok st
  | a :: rest, st =>
    match oneFile E b a st with
    | .error e => .error e
    | .ok none => noEndRest E b nend rest st
    | .ok (some st') => noEndRest E b nend rest (noEndFlush E b a nend st')

/-- One block (577-655), returning also the new `nend`. The first round is unrolled, because it
alone assigns `nend` (637-638). -/
def noEndBlock (E : Env F) (b : Nat) (nstart nend : Int) (st : DSt F) : Except Nat (DSt F × Int) :=
  match oneFile E b nstart { st with f := 0 } with
  | .error e => .error e
  | .ok none =>
    (noEndRest E b nend (numbers (nstart + 1) nend) { st with f := 0 }).map fun s => (s, nend)
  | .ok (some st') =>
    let nend' := if 0 < st'.nfiles then nstart + st'.nfiles else nend
    (noEndRest E b nend' (numbers (nstart + 1) nend') (noEndFlush E b nstart nend' st')).map
      fun s => (s, nend')

/-- The loop over blocks (573-667). -/
def noEndBlocks (E : Env F) (nstart : Int) : List Nat → Int → DSt F → Except Nat (DSt F × Int)
  | [], nend, st => .ok (st, nend)
  | b :: bs, nend, st =>
    match noEndBlock E b nstart nend st with
    | .error e => .error e
    | .ok (st', nend') => noEndBlocks E nstart bs nend' st'

/-! ### Explicit list of input files (669-732) -/

/-- The loop over the arguments of one block (676-722). -/
def listLoop (E : Env F) (b : Nat) : List F → DSt F → Except Nat (DSt F)
  | [], st => .ok st
  | x :: rest, st =>
    match handleFile E b x st with
    | .error e => .error e
    | .ok st' =>
      if (st'.f : Int) = st'.nfiles ∨ rest = [] then
        listLoop E b rest { doFlush E b st' with f := 0 }
      else listLoop E b rest st'

/-- The loop over blocks (671-732). -/
def listBlocks (E : Env F) (files : List F) : List Nat → DSt F → Except Nat (DSt F)
  | [], st => .ok st
  | b :: bs, st =>
    match listLoop E b files { st with f := 0 } with
    | .error e => .error e
    | .ok st' => listBlocks E files bs st'

/-! ### Status and removal (734-800) -/

/-- How the input files were given. -/
inductive Input (F : Type) where
  /-- `-n nstart -e nend` -/
  | range (nstart nend : Int)
  /-- `-n nstart` only -/
  | noEnd (nstart : Int)
  /-- names on the command line -/
  | list (files : List F)

/-- What can be observed of a run. -/
structure Run (F : Type) where
  status : Nat
  removed : List F
  trace : List (Event F)

/-- The removal loop over numbers (750-780). -/
def removeNums (E : Env F) : Option Nat → List Int → List F
  | _, [] => []
  | width, a :: rest =>
    match findWidth E width a with
    | none => removeNums E none rest
    | some w =>
      if E.onDisk (E.name w a) then E.name w a :: removeNums E (some w) rest
      else removeNums E (some w) rest

/-- 735-738. -/
def closeOut (E : Env F) (st : DSt F) : UInt8 := addErrs st.outErrs [E.syncErr, E.closeErr]

/-- 734-800; `toRemove` is the list built by the removal loops. -/
def finish (E : Env F) (removein : Bool) (st : DSt F) (toRemove : List F) : Run F :=
  if st.infileErr = false ∧ closeOut E st = 0 then
    { status := 0, removed := if removein then toRemove else [], trace := st.trace }
  else { status := 1, removed := [], trace := st.trace }

/-- The part of `main` from 472 on, with `nb` blocks. -/
def run (E : Env F) (removein : Bool) (nb : Nat) : Input F → Run F
  | .range nstart nend =>
    match rangeBlocks E nstart nend (List.range nb) DSt.init with
    | .error e => { status := e, removed := [], trace := [] }
    | .ok st => finish E removein st (removeNums E st.width (numbers nstart (nend + 1)))
  | .noEnd nstart =>
    match noEndBlocks E nstart (List.range nb) (nstart + 1) DSt.init with
    | .error e => { status := e, removed := [], trace := [] }
    | .ok (st, nend) => finish E removein st (removeNums E st.width (numbers nstart (nend + 1)))
  | .list files =>
    match listBlocks E files (List.range nb) DSt.init with
    | .error e => { status := e, removed := [], trace := [] }
    | .ok st => finish E removein st (files.filter E.onDisk)

end Verif.Driver
