import Verif.Model.FregridMeta
/-
Specification of the part of a dimension that is asked for: levels and time steps from the first to the last of the options, counted from 1; all if there
is no option; all of other dimensions.
-/
namespace Verif.Spec.FregridMeta
open Verif.FregridMeta

variable {F : Type}

/-- The option that applies to a dimension. -/
def option (o : Opts) (d : Dim F) : Option (Nat × Nat) := if d.cart = 'T' then o.l else if d.cart = 'Z' then o.k else none

/-- First place and number of places asked for. -/
def first (o : Opts) (d : Dim F) : Nat := match option o d with | some (b, _) => b - 1 | none => 0
def count (o : Opts) (d : Dim F) : Nat := match option o d with | some (b, e) => e - b + 1 | none => d.size

/-- Options as the program accepts them. -/
def Proper (o : Opts) : Prop := (∀ b e, o.k = some (b, e) → 1 ≤ b ∧ b ≤ e) ∧ ∀ b e, o.l = some (b, e) → 1 ≤ b ∧ b ≤ e

/-- The axis is the part of the dimension that is asked for, with the bounds of that part. -/
def Part (o : Opts) (d : Dim F) (a : Axis F) : Prop :=
  a.name = d.name ∧ a.cart = d.cart ∧ a.size = count o d ∧ first o d + count o d ≤ d.size ∧ (∀ k < count o d, a.data k = d.data (first o d + k)) ∧
  a.bndtype = d.bndtype ∧ (d.bndtype = 1 → ∀ k ≤ count o d, a.bnd k = d.bnd (first o d + k)) ∧
  (d.bndtype = 2 → ∀ k < count o d, a.bnd (2 * k) = d.bnd (2 * (first o d + k)) ∧ a.bnd (2 * k + 1) = d.bnd (2 * (first o d + k) + 1))

/-- Time comes first, levels come third from the last, where the field is remapped. -/
def Ordered (v : Var F) : Prop :=
  v.regrid = true → ∀ k d, v.dims[k]? = some d → (d.cart = 'Z' → k + 3 = v.dims.length) ∧ (d.cart = 'T' → k = 0)

/-- A name stands for one dimension. -/
def OneFile (vs : List (Var F)) : Prop := ∀ v ∈ vs, ∀ d ∈ v.dims, ∀ v' ∈ vs, ∀ d' ∈ v'.dims, d.name = d'.name → d = d'

end Verif.Spec.FregridMeta
