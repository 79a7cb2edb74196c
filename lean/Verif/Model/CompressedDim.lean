/-
Model of `is-compressed` and of the inquiries about compressed dimensions in
libnfu.

A file is its dimensions, its variables and the identity of the unlimited
dimension.  Opening the file either gives such a file or a NetCDF error code.
Simplifications: a text attribute is the list of its characters, without the
limit of 1024 characters of `compress` (nfu_compress.F90 515) and without NUL
characters; the arrays of dimensions have no upper limit (`NF_MAX_VAR_DIMS` in
the code, nfu_compress.F90 600-601); inquiries about an open file cannot fail
except by not finding a name.
-/
namespace Verif.CompressedDim

/-- The value of an attribute: text, or anything else, which
`nf_get_att_text` refuses to read. -/
inductive AttVal where
  | text (s : List Char)
  | num
  deriving DecidableEq

/-- A dimension: name and length. -/
structure Dim where
  name : List Char
  len : Nat

/-- A variable: name, ids of its dimensions in the order of the file
interface used, and attributes. -/
structure Var where
  name : List Char
  dims : List Nat
  atts : List (List Char × AttVal)

/-- An open file. -/
structure File where
  dims : List Dim
  vars : List Var
  unlim : Option Nat

/-- The name of the attribute (is-compressed.c 131, nfu_compress.F90 521). -/
def compressName : List Char := "compress".toList

/-- `nc_inq_varid`. -/
def inqVarid (f : File) (name : List Char) : Option Var :=
  f.vars.find? fun v => v.name = name

/-- `nc_inq_attid` and `nf_get_att_text`: the attribute, if there is one. -/
def inqAtt (v : Var) (name : List Char) : Option AttVal :=
  (v.atts.find? fun a => a.1 = name).map (·.2)

/-- The loop over dimensions, src/land_utils/is-compressed.c 125-136: the exit
status, 0 at the first dimension whose variable has the attribute and -1 after
the last one. -/
def dimLoop (f : File) : List Dim → Int
  | [] => -1
  | d :: ds =>
    match inqVarid f d.name with
    | none => dimLoop f ds
    | some v =>
      match inqAtt v compressName with
      | none => dimLoop f ds
      | some _ => 0

/-- Outcome of `main` of is-compressed, src/land_utils/is-compressed.c 68-140,
as the value given to `exit`.  `opts` are the option letters met by `getopt`
(long options count as their letters, unknown ones as any other letter), `file`
is the last argument, if there is any argument, and `opened` what `nc_open`
does with it. -/
def mainStatus (opts : List Char) (argc : Nat) (opened : Except Int File) : Int :=
  if argc < 2 then 1
  else
    match opts with
    | [] =>
      match opened with
      | .error e => e
      | .ok f => dimLoop f f.dims
    | c :: cs =>
      if c = 'd' then mainStatus cs argc opened
      else if c = 'V' then 0
      else if c = 'h' then 0
      else 1

/-- The exit status seen by the caller: the low eight bits. -/
def exitStatus (opts : List Char) (argc : Nat) (opened : Except Int File) : Int :=
  mainStatus opts argc opened % 256

/-- `nfu_inq_dim` by name, lib/libnfu/nfu.F90 156-169: id and length. -/
def inqDim (f : File) (name : List Char) : Option (Nat × Nat) :=
  match f.dims.findIdx? fun d => d.name = name with
  | none => none
  | some i => some (i, (f.dims.getD i ⟨[], 0⟩).len)

/-- The loop that parses the attribute from its end, lib/libnfu/nfu_compress.F90
525-543.  The argument is `compress(1:ie)` reversed; `scan(..., back=.true.)`
finds the first blank of it.  The result is the list of entries written to
`dimids` and `dimlens` (also when the function fails later) and whether it
succeeds. -/
def parseDims (f : File) (rev : List Char) : List (Nat × Nat) × Bool :=
  if rev = [] then ([], true)
  else
    let tok := (rev.takeWhile fun c => c ≠ ' ').reverse
    let rest := (rev.dropWhile fun c => c ≠ ' ').drop 1
    if tok = [] then parseDims f rest
    else
      match inqDim f tok with
      | none => ([], false)
      | some e =>
        let r := parseDims f rest
        (e :: r.1, r.2)
  termination_by rev.length
  decreasing_by
    all_goals
      simp only [List.length_drop]
      have := (List.dropWhile_sublist (fun c : Char => decide (c ≠ ' ')) (l := rev)).length_le
      have : rev.length ≠ 0 := by simpa using ‹¬ rev = []›
      omega

/-- `inq_compressed_dim_i`, lib/libnfu/nfu_compress.F90 506-546, for a dimension
`d` of the file: what is written and whether the function succeeds.
`len_trim` drops the blanks at the end. -/
def inqCompressedDim (f : File) (d : Dim) : List (Nat × Nat) × Bool :=
  match inqVarid f d.name with
  | none => ([], false)
  | some v =>
    match inqAtt v compressName with
    | some (.text s) => parseDims f (s.reverse.dropWhile fun c => c = ' ')
    | _ => ([], false)

/-- The arrays `dids1`, `dlens1` with the values `ws` written from index `pos`
on (indices from 0). -/
def writeAt (a : Nat → Nat × Nat) (pos : Nat) (ws : List (Nat × Nat)) : Nat → Nat × Nat :=
  fun i => if pos ≤ i ∧ i < pos + ws.length then ws.getD (i - pos) (0, 0) else a i

/-- State of the loop of `inq_compressed_var_i`: `nd1-1`, the arrays and
`is_compressed`. -/
structure ExpSt where
  nd : Nat
  arr : Nat → Nat × Nat
  comp : Bool

/-- One round of the loop, lib/libnfu/nfu_compress.F90 614-623. -/
def expStep (f : File) (st : ExpSt) (id : Nat) : ExpSt :=
  let d := f.dims.getD id ⟨[], 0⟩
  let r := inqCompressedDim f d
  let arr := writeAt st.arr st.nd r.1
  if r.2 then { nd := st.nd + r.1.length, arr := arr, comp := true }
  else { nd := st.nd + 1, arr := writeAt arr st.nd [(id, d.len)], comp := st.comp }

/-- The loop with its early exit, lib/libnfu/nfu_compress.F90 612-626. -/
def expLoop (f : File) (firstOnly : Bool) : List Nat → ExpSt → ExpSt
  | [], st => st
  | id :: ids, st =>
    let st := expStep f st id
    if firstOnly then st else expLoop f firstOnly ids st

/-- What `inq_compressed_var_i` reports. -/
structure VarInfo where
  ndims : Nat
  entries : Nat → Nat × Nat
  varsize : Nat
  recsize : Nat
  isCompressed : Bool

/-- The loop over the sizes, lib/libnfu/nfu_compress.F90 634-639. -/
def sizes (unlim : Option Nat) (arr : Nat → Nat × Nat) : Nat → Nat × Nat
  | 0 => (1, 1)
  | n + 1 =>
    let r := sizes unlim arr n
    (r.1 * (arr n).2, if some (arr n).1 ≠ unlim then r.2 * (arr n).2 else r.2)

/-- `inq_compressed_var_i`, lib/libnfu/nfu_compress.F90 578-646.  `junk` is what
the arrays hold at entry. -/
def inqCompressedVar (f : File) (v : Var) (firstOnly : Bool) (junk : Nat → Nat × Nat) : VarInfo :=
  let st := expLoop f firstOnly v.dims { nd := 0, arr := junk, comp := false }
  let s := sizes f.unlim st.arr st.nd
  { ndims := st.nd, entries := st.arr, varsize := s.1, recsize := s.2, isCompressed := st.comp }

end Verif.CompressedDim
