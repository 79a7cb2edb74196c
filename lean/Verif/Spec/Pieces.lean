import Verif.Model.NcArray
/-
Specification vocabulary for the input files of mppnccombine.
-/
namespace Verif.Spec

/-- The files of one decomposed data set. All files have `nd` dimensions, the same record dimension
`R` and variables with the same dimensions and coordinate roles (`sh`). `full d` is the length of
dimension `d` in the whole domain (for the record dimension: the number of records), `iv k d` the
closed 0-based interval that file `k` has of it, `dec d` says whether dimension `d` is decomposed. -/
structure PieceSet {α : Type} (files : List (NcFile α)) (nd : Nat) (R : Option Nat)
    (sh : List (List Nat × Option Nat)) (full : Nat → Nat) (dec : Nat → Bool)
    (iv : Nat → Nat → Int × Int) : Prop where
  ne : files ≠ []
  /-- Every file has the same structure. -/
  shape : ∀ f ∈ files, f.recdim = R ∧ f.dims.length = nd ∧
    f.vars.map (fun v => (v.dims, v.coord)) = sh ∧ f.numFiles = some (files.length : Int)
  /-- Dimension ids are valid; variables have at most 4 dimensions. -/
  dim_lt : ∀ p ∈ sh, p.1.length ≤ 4 ∧ ∀ d ∈ p.1, d < nd
  /-- The record dimension comes first. -/
  rec_first : ∀ p ∈ sh, ∀ r, R = some r → r ∉ p.1.tail
  /-- A coordinate variable has its dimension as the only one. -/
  coord_dims : ∀ p ∈ sh, ∀ d, p.2 = some d → p.1 = [d]
  /-- There is at least one record, all files have the same records. -/
  records : ∀ r, R = some r → r < nd ∧ 1 ≤ full r ∧ dec r = false
  /-- The lengths of the dimensions. -/
  size : ∀ (k : Nat) (f : NcFile α), files[k]? = some f → ∀ d, d < nd →
    0 ≤ (iv k d).1 ∧ (iv k d).1 ≤ (iv k d).2 + 1 ∧ (iv k d).2 < full d ∧
    f.dims[d]? = some ((iv k d).2 - (iv k d).1 + 1).toNat
  /-- A dimension that is not decomposed is complete in every file and has no attribute. -/
  undecomposed : ∀ (k : Nat) (f : NcFile α), files[k]? = some f → ∀ d, d < nd → dec d = false →
    iv k d = (0, (full d : Int) - 1) ∧ ∀ v ∈ f.vars, v.coord = some d → v.decomp = none
  /-- A decomposed dimension has a coordinate variable with the attribute `domain_decomposition`:
  first and last index of the whole domain, first and last index of the piece. The first index of
  the domain may be any number `a`. -/
  decomposed : ∀ (k : Nat) (f : NcFile α), files[k]? = some f → ∀ d, d < nd → dec d = true →
    (∃ v ∈ f.vars, v.coord = some d) ∧
    ∃ a : Int, ∀ v ∈ f.vars, v.coord = some d →
      v.decomp = some (a, a + full d - 1, a + (iv k d).1, a + (iv k d).2)

/-- The number of records. -/
def numRecs (R : Option Nat) (full : Nat → Nat) : Nat :=
  match R with
  | none => 1
  | some r => full r

end Verif.Spec
