import Verif.Model.Compress
/-
Compression by gathering (CF conventions): a compressed dimension lists grid points.
-/
namespace Verif.Spec
open Compress

/-- Position of index vector `idx` in an array with dimension lengths `dims`, first dimension varying
fastest (Fortran order). -/
def linF : List Nat → List Nat → Nat
  | d :: ds, i :: is => i + d * linF ds is
  | _, _ => 0

/-- The grid point at which the value with indices `idx` of the compressed variable belongs; `none` if
one of the stored indices is negative, that is, marks no point. -/
def pointOf : List CDim → List Nat → Option (List Nat)
  | [], [] => some []
  | d :: ds, k :: ks =>
    match d.comp with
    | none => (pointOf ds ks).map (k :: ·)
    | some (ix, _) =>
      match ix[k]? with
      | some v => if 0 ≤ v then (pointOf ds ks).map (v.toNat :: ·) else none
      | none => none
  | _, _ => none

/-- Lengths of the compressed variable and of the grid. -/
def fileDims (dims : List CDim) : List Nat := dims.map CDim.len
def gridDims (dims : List CDim) : List Nat := dims.map CDim.gsize

/-- A file following the conventions: every dimension has at least one element, a compressed dimension
has as many indices as its length says, and they are less than the number of grid points. -/
def WellFormed (dims : List CDim) : Prop :=
  ∀ d ∈ dims, 0 < d.len ∧ ∀ ix n, d.comp = some (ix, n) → ix.length = d.len ∧ ∀ v ∈ ix, v < n

/-- No stored index is repeated (apart from negative ones). -/
def NoRepeats (dims : List CDim) : Prop :=
  ∀ d ∈ dims, ∀ ix n, d.comp = some (ix, n) →
    ∀ (i j : Nat) (v : Int), ix[i]? = some v → ix[j]? = some v → 0 ≤ v → i = j

/-- No stored index is negative. -/
def NoNegative (dims : List CDim) : Prop :=
  ∀ d ∈ dims, ∀ ix n, d.comp = some (ix, n) → ∀ v ∈ ix, 0 ≤ v

end Verif.Spec
