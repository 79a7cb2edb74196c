import Mathlib.Data.List.Forall2
/-
Row-major arrays and the part of the netCDF contract the models use.

A netCDF variable is a function from index vectors (one entry per dimension, slowest first) to
values. `nc_get_vara`/`ncvarget` deliver a block as a contiguous row-major buffer,
`nc_put_vara`/`ncvarput` store such a buffer; this is the documented behaviour of the netCDF
library, which is not part of /repo.
-/
namespace Verif

/-- Row-major position of index vector `idx` in an array with dimension lengths `dims`. -/
def flat : List Nat → List Nat → Nat
  | _ :: ds, i :: is => i * ds.prod + flat ds is
  | _, _ => 0

/-- Index vector of position `n`. -/
def unflat : List Nat → Nat → List Nat
  | [], _ => []
  | _ :: ds, n => n / ds.prod :: unflat ds (n % ds.prod)

/-- `idx` is a valid index vector for dimension lengths `dims`. -/
def InBox (dims idx : List Nat) : Prop := List.Forall₂ (fun i d => i < d) idx dims

/-- Index vectors `start ≤ idx < start + count`, entry by entry. -/
def inSlab : List Nat → List Nat → List Nat → Bool
  | [], [], [] => true
  | s :: ss, c :: cs, i :: is => decide (s ≤ i ∧ i < s + c) && inSlab ss cs is
  | _, _, _ => false

def addIdx (a b : List Nat) : List Nat := List.zipWith (· + ·) a b
def subIdx (a b : List Nat) : List Nat := List.zipWith (· - ·) a b

/-- `nc_get_vara`: the block `start, count` as a buffer. -/
def getVara {α : Type} (val : List Nat → α) (start count : List Nat) : Nat → α :=
  fun n => val (addIdx start (unflat count n))

/-- `nc_get_var`: the whole variable as a buffer. -/
def getVar {α : Type} (val : List Nat → α) (shape : List Nat) : Nat → α :=
  fun n => val (unflat shape n)

/-- `nc_put_vara`: store a buffer into the block `start, count`. -/
def putVara {α : Type} (old : List Nat → α) (start count : List Nat) (buf : Nat → α) :
    List Nat → α :=
  fun idx => if inSlab start count idx = true then buf (flat count (subIdx idx start)) else old idx

/-- The `domain_decomposition` attribute: global start and end, local start and end (1-based). -/
abbrev Decomp := Int × Int × Int × Int

/-- A variable of a netCDF file: its dimension ids, the dimension that has the variable's name (if
any), the attributes the tools look at, and the values. -/
structure NcVar (α : Type) where
  dims : List Nat
  coord : Option Nat
  decomp : Option Decomp
  missing : Option α
  val : List Nat → α

/-- A netCDF file: dimension lengths (the record dimension has the number of records), the record
dimension, the `NumFilesInSet` attribute and the variables. -/
structure NcFile (α : Type) where
  dims : List Nat
  recdim : Option Nat
  numFiles : Option Int
  vars : List (NcVar α)

/-- The netCDF classic data model: dimension ids are valid, and the record dimension can only be the
first dimension of a variable. -/
structure NcFile.WF {α : Type} (f : NcFile α) : Prop where
  rec_lt : ∀ r, f.recdim = some r → r < f.dims.length
  dim_lt : ∀ v ∈ f.vars, ∀ d ∈ v.dims, d < f.dims.length
  rec_first : ∀ v ∈ f.vars, ∀ r, f.recdim = some r → r ∉ v.dims.tail

end Verif
