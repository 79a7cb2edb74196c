import Verif.Model.ScatterDims
/-
How a dimension should be classified from its own metadata.
-/
namespace Verif.Spec
open ScatterDims

/-- `t` begins with `p`, ignoring the case of `t`. -/
def begins (t p : List Char) : Bool := p.isPrefixOf (t.map Char.toLower)

/-- What the units say, if they say anything. -/
def unitsKind : Option Attr → Option ScatterKind
  | some (some t) =>
    if unitsX.any (begins t) then some .x
    else if unitsY.any (begins t) then some .y
    else none
  | _ => none

/-- What the cartesian axis says. -/
def axisKind : Option Attr → ScatterKind
  | some (some t) =>
    if begins t ['x'] then .x else if begins t ['y'] then .y else .no
  | _ => .no

/-- From the user lists, else from the units, else from the cartesian axis. Record dimensions and
dimensions without coordinate variable that are not listed are not scattered. -/
def classify (o : Opts) (m : DimMeta) : ScatterKind :=
  if m.isRec then .no
  else if m.name ∈ o.xdims then .x
  else if m.name ∈ o.ydims then .y
  else if m.hasVar then (unitsKind m.units).getD (axisKind m.axis)
  else .no

/-- `t`, with anything behind it, begins with `p` only if `t` itself does: `t` is not a proper
beginning of `p`. A text that ends in NUL has this property, and so does every text of at least
13 characters. -/
def Settled (ps : List (List Char)) (t : List Char) : Prop :=
  ∀ p ∈ ps, ¬ ((t.map Char.toLower).isPrefixOf p = true ∧ t.length < p.length)

/-- The program finds everything it needs in the metadata of the dimension itself: it is the record
dimension, is listed, or has no coordinate variable; or its units are a text that no unit pattern
continues, and the axis text, if there is one and it is needed, is not empty. -/
def SelfContained (o : Opts) (m : DimMeta) : Prop :=
  m.isRec = true ∨ m.name ∈ o.xdims ∨ m.name ∈ o.ydims ∨ m.hasVar = false ∨
  ∃ t, m.units = some (some t) ∧ Settled (unitsX ++ unitsY) t ∧ m.axis ≠ some (some [])

end Verif.Spec
