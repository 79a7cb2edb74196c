/-
Specification of compressed dimensions: compression by gathering as described
by the CF conventions.
-/
import Verif.Model.CompressedDim
import Mathlib.Data.List.Forall2

namespace Verif.Spec
open CompressedDim

/-- The guarantees of the NetCDF library: names are unique and dimension ids
are valid. -/
structure FileOk (f : File) : Prop where
  varNames : (f.vars.map (·.name)).Nodup
  dimNames : (f.dims.map (·.name)).Nodup
  attNames : ∀ v ∈ f.vars, (v.atts.map (·.1)).Nodup
  dimIds : ∀ v ∈ f.vars, ∀ i ∈ v.dims, i < f.dims.length

/-- The variable named like the dimension has an attribute `compress` with
value `a`. -/
def CompressAtt (f : File) (d : Dim) (a : AttVal) : Prop :=
  ∃ v ∈ f.vars, v.name = d.name ∧ ("compress".toList, a) ∈ v.atts

/-- The words of a string: the non-empty pieces between blanks. -/
def blankWords (s : List Char) : List (List Char) :=
  (s.splitOnP fun c => c == ' ').filter fun w => w ≠ []

/-- `e` is the id and the length of the dimension called `name`. -/
def IsDim (f : File) (name : List Char) (e : Nat × Nat) : Prop :=
  ∃ d, f.dims[e.1]? = some d ∧ d.name = name ∧ d.len = e.2

/-- The dimension `d` stands for the dimensions `es`, the last one of the
attribute first. -/
def Gathers (f : File) (d : Dim) (es : List (Nat × Nat)) : Prop :=
  ∃ s, CompressAtt f d (.text s) ∧ List.Forall₂ (IsDim f) (blankWords s) es.reverse

/-- The dimension `id` of a variable in expanded form: the dimensions it
stands for, or itself if it stands for none. -/
def Expands (f : File) (id : Nat) (es : List (Nat × Nat)) : Prop :=
  ∃ d, f.dims[id]? = some d ∧
    (Gathers f d es ∨ (¬ ∃ es', Gathers f d es') ∧ es = [(id, d.len)])

end Verif.Spec
