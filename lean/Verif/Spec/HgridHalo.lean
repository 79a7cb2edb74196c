import Verif.Spec.FregridHalo
/-
Specification of the halo around a tile of a cubed sphere, for values at the points of a grid that is shifted by `a` across to the east and by
`b` to the north (centres 0, 0; corners 1, 1; lengths in x-direction 0, 1; lengths in y-direction 1, 0). Where a neighbour is turned, lengths in one
direction go on as lengths in the other. The tiles and contacts are those of Spec/FregridHalo.
-/
namespace Verif.Spec.HgridHalo
open Verif.Spec.FregridHalo

variable {F : Type}

/-- Value at place (i, j) of tile `t`, tiles of `w` by `h` values. -/
def at' (w h : Nat) (v : Nat → F) (t : Nat) (p : Int × Int) : F := v (t * (w * h) + p.2.toNat * w + p.1.toNat)

/-- Value at (i, j) of an array with one more place on each side, `w` values in a row inside. -/
def framed (w : Nat) (v : Nat → F) (p : Int × Int) : F := v ((p.2 + 1).toNat * (w + 2) + (p.1 + 1).toNat)

/-- Shift along and across the edge. -/
def along (a b : Nat) (e : Edge) : Nat := if e.vertical then b else a
def across (a b : Nat) (e : Edge) : Nat := if e.vertical then a else b

/-- The place outside tile `g.t1` across place `m` of the edge, and the place of tile `g.t2` that it stands for. -/
def out (n a b : Nat) (g : Glue) (m : Nat) : Int × Int := outside n n (across a b g.e1) g.e1.side (g.e1.pos (along a b g.e1) m)
def inn (n a b : Nat) (g : Glue) (m : Nat) : Int × Int := inside n n (across a b g.e1) g.e2.side (g.e2.pos (along a b g.e1) m)

/-- The neighbour lies turned by a right angle. -/
def turned (g : Glue) : Prop := g.e1.vertical ≠ g.e2.vertical

instance (g : Glue) : Decidable (turned g) := by unfold turned; infer_instance

/-- The value that belongs outside of tile `g.t1`: `v` has the shifts `a`, `b`, `v'` has `b`, `a`. -/
def wanted (n a b : Nat) (v v' : Nat → F) (g : Glue) (m : Nat) : F :=
  if turned g then at' (n + b) (n + a) v' g.t2 (inn n a b g m) else at' (n + a) (n + b) v g.t2 (inn n a b g m)

end Verif.Spec.HgridHalo
