import Verif.Model.NcArray
import Verif.Model.Loop
/-
mppnccombine: src/mpp-nccombine/mppnccombine.c
* `process_file` 914-1270, `process_vars` 1276-1775, `flush_decomp` 1779-1831
* the block loop of `main` for a list of input files, 675-732
The five data types are treated by textually identical code; one type `α` stands for all of them.
Not modelled: appending to an existing output file (-a), the dry run (-x), padding, compression,
attributes other than those in `NcVar`, failures of memory allocation or of the netCDF library other
than reading a record that does not exist.
-/
namespace Verif

/-- Outcomes that leave the defined behaviour. -/
inductive CFault
  /-- remainder of a division by a blocking factor 0 -/
  | divZero
  /-- use of a buffer that was not allocated -/
  | nullBuf
  /-- access outside a buffer -/
  | oob
  /-- use of an uninitialised or non-existing variable or dimension -/
  | bad
  /-- the number of iterations given to the model was not enough -/
  | fuel
  deriving DecidableEq, Repr

/-- `dimsize`, `dimfullsize`, `dimstart`, `dimend` of one dimension (`struct fileinfo`). -/
structure DimInfo where
  size : Nat
  full : Int
  start : Int
  fin : Int

/-- process_file 1012-1045: what a variable with the name of a dimension, decomposed or not, sets for
that dimension. -/
def DimInfo.set (dec : Option Decomp) (i : DimInfo) : DimInfo :=
  match dec with
  | some (a, b, c, e) => { i with full := b - a + 1, start := c - (a - 1), fin := e - (a - 1) }
  | none => { i with full := i.size, start := 1, fin := -1 }

/-- One pass of the loop over variables 1000-1045. -/
def dimStep {α : Type} (ds : List DimInfo) (v : NcVar α) : List DimInfo :=
  match v.coord with
  | none => ds
  | some d => ds.modify d (DimInfo.set v.decomp)

/-- process_file 977-1045: the dimensions with their decomposition. -/
def dimInfos {α : Type} (f : NcFile α) : List DimInfo :=
  f.vars.foldl dimStep (f.dims.map (fun n => ⟨n, n, 1, -1⟩))

/-- One dimension of a variable: is it the record dimension, and its entries. -/
structure VDim extends DimInfo where
  isRec : Bool

/-- The dimensions of a variable. -/
def vdims {α : Type} (f : NcFile α) (v : NcVar α) : Option (List VDim) :=
  v.dims.mapM (fun d => (dimInfos f)[d]?.map (fun i => ⟨i, decide (f.recdim = some d)⟩))

/-- `varrecdim != -1`. -/
def hasRec (vd : List VDim) : Bool := vd.any (fun d => d.isRec)
/-- `vardecomp[v]`, process_file 1052-1066. -/
def isDec (vd : List VDim) : Bool := vd.any (fun d => decide (d.fin ≠ -1))

/-- A malloc'ed buffer for one record of a variable over the full domain. -/
structure Buf (α : Type) where
  size : Int
  cell : Int → α

/-- The state that belongs to one variable: the buffers `varbuf[slot][v]` (`none` is `NULL`) and
what has been written to the output file (`none`: nothing yet). -/
structure VSt (α : Type) where
  buf : Nat → Option (Buf α)
  out : List Nat → Option α

/-- process_vars 1428-1461: is the variable left out in this call? -/
def skipVar (r f : Nat) (append rec dec : Bool) (recdim coord : Option Nat) : Bool :=
  if r > 0 then
    match coord with
    | some d => if recdim = some d then decide (f ≠ 0) else true
    | none => !rec || (!dec && decide (f > 0))
  else !dec && append

/-- process_vars 1571-1690: the positions in the full-domain buffer in the order of the loops over
`l`, `k`, `j`, `i`. -/
def copyOffsets (vd : List VDim) (r : Nat) : List Int :=
  let q := vd.reverse
  let sz (n : Nat) : Nat := match q[n]? with
    | none => 1
    | some d => if d.isRec && decide (n ≠ 0) then 1 else d.size
  let fullAt (n : Nat) : Int := match q[n]? with
    | none => 1
    | some d => d.full
  let outAt (n : Nat) : Int := match q[n]? with
    | none => 0
    | some d => if d.isRec then (r : Int) else d.start - 1
  let off (n : Nat) : Int := if hasRec vd && decide (vd.length = n + 1) then 0 else outAt n
  (List.range (sz 3)).flatMap fun l => (List.range (sz 2)).flatMap fun k =>
    (List.range (sz 1)).flatMap fun j => (List.range (sz 0)).map fun i =>
      ((i : Int) + off 0) + ((j : Int) + off 1) * fullAt 0 + ((k : Int) + off 2) * (fullAt 0 * fullAt 1)
        + ((l : Int) + off 3) * (fullAt 0 * fullAt 1 * fullAt 2)

/-- The stores `varbuf[offset] = values[b++]`. -/
def writeCells {α : Type} (values : Nat → α) (recsize : Nat) :
    List Int → Nat → Buf α → Except CFault (Buf α)
  | [], _, b => .ok b
  | o :: os, n, b =>
    if n < recsize ∧ 0 ≤ o ∧ o < b.size then
      writeCells values recsize os (n + 1) { b with cell := fun a => if a = o then values n else b.cell a }
    else .error .oob

/-- The body of the loop over variables in process_vars 1399-1770 for record `r` of file number `f`.
`.ok none` is the return with an error message. `zero` is the value of zeroed memory, `miss` the
fill value from the option -m. -/
def procVar {α : Type} (zero : α) (miss : Option α) (append : Bool) (bf r f : Nat)
    (recdim coord : Option Nat) (vd : List VDim) (val : List Nat → α) (st : VSt α) :
    Except CFault (Option (VSt α)) :=
  if skipVar r f append (hasRec vd) (isDec vd) recdim coord = true then .ok (some st)
  else if vd.any (fun d => d.isRec && decide (d.size ≤ r)) = true then .ok none
  else
    let count := vd.map (fun d => if d.isRec then 1 else d.size)
    let instart := vd.map (fun d => if d.isRec then r else 0)
    let outstart := vd.map (fun d => if d.isRec then r else (d.start - 1).toNat)
    let values := getVara val instart count
    if isDec vd = false then
      .ok (some { st with out := putVara st.out outstart count (fun n => some (values n)) })
    else if bf = 0 then .error .divZero
    else
      let b := (st.buf (r % bf)).getD
        { size := (vd.map (fun d => if d.isRec then 1 else d.full)).prod
          cell := fun _ => miss.getD zero }
      match writeCells values count.prod (copyOffsets vd r) 0 b with
      | .error e => .error e
      | .ok b' => .ok (some { st with buf := fun s => if s = r % bf then some b' else st.buf s })

/-- What is remembered of a variable for the output file (process_file 1068-1080, 1170-1183). -/
structure OutVar (α : Type) where
  vd : List VDim
  miss : Option α

/-- The body of the loop of flush_decomp 1795-1828. -/
def flushVar {α : Type} (o : OutVar α) (bf r : Nat) (st : VSt α) : Except CFault (VSt α) :=
  if isDec o.vd = false then .ok st
  else if hasRec o.vd = false ∧ r > 0 then .ok st
  else if bf = 0 then .error .divZero
  else
    match st.buf (r % bf) with
    | none => .error .nullBuf
    | some b =>
      let count : List Nat := o.vd.map (fun d => if d.isRec then 1 else d.full.toNat)
      let start := o.vd.map (fun d => if d.isRec then r else 0)
      if b.size < (count.prod : Int) then .error .oob
      else .ok { st with out := putVara st.out start count (fun n => some (b.cell n)) }

/-- State of the program. `err` is `infileerrors`. -/
structure CSt (α : Type) where
  nrecs : Nat
  bf : Nat
  nblocks : Nat
  nfiles : Int
  append : Bool
  err : Bool
  info : Option (List (OutVar α))
  var : Nat → VSt α

/-- The number of records process_vars sees, 1297-1300. -/
def recCount {α : Type} (f : NcFile α) : Option Nat :=
  match f.recdim with
  | none => some 1
  | some r => f.dims[r]?

/-- process_vars 1303-1353: number of records, blocking factor and number of blocks. The number of
records is taken from the file whenever the known number is 1. `none`: the file has a different
number of records. -/
def setRecs (nr : Nat) (nrecs bf nblocks : Nat) : Except CFault (Option (Nat × Nat × Nat)) :=
  if nrecs = 1 then
    let bf' := if bf ≥ 1 then (if bf > nr then nr else bf) else min 100 nr
    if bf' = 0 then .error .divZero
    else .ok (some (nr, bf', if nr % bf' ≠ 0 then nr / bf' + 1 else nr / bf'))
  else if nr ≠ nrecs then .ok none
  else .ok (some (nrecs, bf, nblocks))

/-- process_vars 1276-1775. The second component is the returned error flag. -/
def processVars {α : Type} (zero : α) (file : NcFile α) (append : Bool) (r f : Nat) (st : CSt α) :
    Except CFault (CSt α × Bool) :=
  match recCount file with
  | none => .error .bad
  | some nr =>
    match setRecs nr st.nrecs st.bf st.nblocks with
    | .error e => .error e
    | .ok none => .ok (st, true)
    | .ok (some (nrecs, bf, nblocks)) =>
      forLoop (fun v (s : CSt α × Bool) =>
        if s.2 = true then .ok s                    -- already returned
        else
          match file.vars[v]? with
          | none => .error .bad
          | some x =>
            match vdims file x, (s.1.info.bind (fun l => l[v]?)) with
            | some vd, some o =>
              match procVar zero o.miss append bf r f file.recdim x.coord vd x.val (s.1.var v) with
              | .error e => .error e
              | .ok none => .ok (s.1, true)
              | .ok (some vs) =>
                .ok ({ s.1 with var := fun n => if n = v then vs else s.1.var n }, false)
            | _, _ => .error .bad)
        0 file.vars.length ({ st with nrecs := nrecs, bf := bf, nblocks := nblocks }, false)

/-- The information for the output file, from the first input file. -/
def outInfo {α : Type} (missing : Bool) (file : NcFile α) : Option (List (OutVar α)) :=
  file.vars.mapM (fun x => (vdims file x).map (fun vd => ⟨vd, if missing then x.missing else none⟩))

/-- process_file 914-1270 for one block. `junk` is the value of the uninitialised variable `nfiles2`
if the attribute `NumFilesInSet` is missing. The error count `ncinfileerror`, an 8-bit number, is
modelled as a flag (see C14 for its overflow). -/
def processFile {α : Type} (zero : α) (missing : Bool) (junk : Int) (file : NcFile α) (block f : Nat)
    (st : CSt α) : Except CFault (CSt α) :=
  match file.numFiles, st.nfiles with
  | none, 1 => .ok { st with err := true }        -- 956-961
  | nf, _ =>
    let st := { st with nfiles := nf.getD junk }
    match (if st.append = true then some st.info else (outInfo missing file).map some) with
    | none => .error .bad
    | some info =>
      let st := { st with info := info }
      let r := block * st.bf
      match processVars zero file st.append r f st with
      | .error e => .error e
      | .ok (st1, e1) =>
        forLoop (fun r' (st : CSt α) =>
          match processVars zero file true r' f st with
          | .error e => .error e
          | .ok (st2, e2) => .ok { st2 with err := st2.err || e2 })
          (r + 1) (min ((block + 1) * st1.bf) st1.nrecs - (r + 1)) { st1 with err := st1.err || e1 }

/-- flush_decomp 1779-1831 for record `r`. -/
def flushDecomp {α : Type} (r : Nat) (st : CSt α) : Except CFault (CSt α) :=
  match st.info with
  | none => .error .bad
  | some info =>
    forLoop (fun v (s : CSt α) =>
      match info[v]? with
      | none => .error .bad
      | some o =>
        match flushVar o s.bf r (s.var v) with
        | .error e => .error e
        | .ok vs => .ok { s with var := fun n => if n = v then vs else s.var n })
      0 info.length st

/-- The loop over the files within a block, main 680-722 (the loops 492-556 and 573-655 do the same
for file names made from numbers). Second argument: the counter `f`. After a flush `f` restarts
from 0. -/
def fileLoop {α : Type} (zero : α) (missing : Bool) (junk : Int) (block : Nat) :
    List (NcFile α) → Nat → CSt α → Except CFault (CSt α)
  | [], _, st => .ok st
  | file :: rest, f, st =>
    match processFile zero missing junk file block f st with
    | .error e => .error e
    | .ok st1 =>
      let st1 := { st1 with append := true }
      if ((f : Int) + 1 = st1.nfiles ∨ rest = []) then
        match forLoop flushDecomp (block * st1.bf)
            (min ((block + 1) * st1.bf) st1.nrecs - block * st1.bf) st1 with
        | .error e => .error e
        | .ok st2 => fileLoop zero missing junk block rest 0 st2
      else fileLoop zero missing junk block rest (f + 1) st1

/-- The loop over blocks, main 675-732; the buffers are freed after every block. -/
def blockLoop {α : Type} (zero : α) (missing : Bool) (junk : Int) (files : List (NcFile α)) :
    Nat → Nat → CSt α → Except CFault (CSt α)
  | 0, _, _ => .error .fuel
  | fuel + 1, block, st =>
    if block < st.nblocks then
      match fileLoop zero missing junk block files 0 st with
      | .error e => .error e
      | .ok st1 =>
        blockLoop zero missing junk files fuel (block + 1)
          { st1 with var := fun n => { st1.var n with buf := fun _ => none } }
    else .ok st

/-- mppnccombine on a list of files with blocking factor `bf` (option -k, `0` is automatic). `fuel`
bounds the number of blocks. The result holds the contents of the output file and the error flag. -/
def mppnccombine {α : Type} (zero : α) (missing : Bool) (junk : Int) (bf fuel : Nat)
    (files : List (NcFile α)) : Except CFault (CSt α) :=
  blockLoop zero missing junk files fuel 0
    { nrecs := 1, bf := min bf 100, nblocks := 1, nfiles := -1, append := false, err := false
      info := none, var := fun _ => ⟨fun _ => none, fun _ => none⟩ }

end Verif
