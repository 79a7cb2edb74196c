import Verif.Model.Decompress
import Verif.Spec.Compress
/-
Values given to grid points by files compressed by gathering.
-/
namespace Verif.Spec
open Compress Decompress

/-- The file follows the conventions, does not repeat a point, and its grid has lengths `G`. -/
structure GoodInput {α : Type} (G : List Nat) (f : Input α) : Prop where
  wf : WellFormed f.dims
  len : f.buffer.length = (fileDims f.dims).prod
  norep : NoRepeats f.dims
  grid : gridDims f.dims = G

/-- File `f` gives grid point `g` the value `x`. -/
def Gives {α : Type} (f : Input α) (g : List Nat) (x : α) : Prop :=
  ∃ i, InBox (fileDims f.dims) i ∧ pointOf f.dims i = some g ∧
    f.buffer[linF (fileDims f.dims) i]? = some x

/-- No grid point gets values from two of the files. -/
def Disjoint {α : Type} (files : List (Input α)) : Prop :=
  files.Pairwise fun f f' => ∀ g x y, Gives f g x → ¬ Gives f' g y

end Verif.Spec
