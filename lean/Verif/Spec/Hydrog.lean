import Verif.Model.Hydrog
import Mathlib.Algebra.BigOperators.Group.List.Basic
import Mathlib.Algebra.Order.Group.Unbundled.Int
/-
Rivers on a grid, for C102 to C105.
-/
namespace Verif.Spec.Hydrog

open Verif.Hydrog

/-- The river at `p` flows to `q` -/
def Next (g : Grid) (toc : Pos → Int) (p q : Pos) : Prop :=
  toc p ≠ 0 ∧ ∃ e, (e, toc p) ∈ dirs ∧ q = wrap g (p.move e)

/-- From `p` a river comes to `q` in `k` steps -/
inductive Path (g : Grid) (toc : Pos → Int) : Pos → Nat → Pos → Prop
  | here (p : Pos) : Path g toc p 0 p
  | step {p q r : Pos} {k : Nat} : Next g toc p q → Path g toc q k r → Path g toc p (k + 1) r

/-- The water of `p` flows through `q` -/
def Above (g : Grid) (toc : Pos → Int) (p q : Pos) : Prop := ∃ k, Path g toc p k q

/-- The river from `c` ends in the outlet `o` after `k` steps -/
def Ends (g : Grid) (toc : Pos → Int) (c : Pos) (k : Nat) (o : Pos) : Prop := Path g toc c k o ∧ toc o = 0 ∧ g.inside o

/-- All rivers end in an outlet -/
def Drains (g : Grid) (toc : Pos → Int) : Prop := ∀ c, g.inside c → toc c ≠ mval → ∃ k o, Ends g toc c k o

/-- The river from `c` never ends -/
def Endless (g : Grid) (toc : Pos → Int) (c : Pos) : Prop := ∀ k, ∃ q, Path g toc c k q

/-- From `p` a river comes to `q` over the length `l` -/
inductive Course {R : Type} [Add R] [Zero R] (g : Grid) (toc : Pos → Int) (dist : Pos → Pos → R) : Pos → R → Pos → Prop
  | here (p : Pos) : Course g toc dist p 0 p
  | step {p q r : Pos} {l : R} : Next g toc p q → Course g toc dist q l r → Course g toc dist p (dist p q + l) r

open Classical in
/-- The total area of the cells whose water flows through `p` -/
noncomputable def upstream {R : Type} [Field R] (g : Grid) (toc : Pos → Int) (w : Pos → R) (p : Pos) : R :=
  (((cells g).filter fun c => decide (toc c ≠ mval ∧ Above g toc c p)).map w).sum

/-- A position beyond a corner of a tile -/
def Corner (g : Grid) (q : Pos) : Prop := (q.x < 1 ∨ g.nx < q.x) ∧ (q.y < 1 ∨ g.ny < q.y)

/-- Two neighbours in a tile, side by side, flow along the two diagonals of the same square: `e` and `f` are their steps, and the
two steps have the same middle -/
def Cross (g : Grid) (toc : Pos → Int) (p q : Pos) : Prop :=
  g.inside p ∧ g.inside q ∧ p.n = q.n ∧ |p.x - q.x| + |p.y - q.y| = 1 ∧
  ∃ e f, (e, toc p) ∈ dirs ∧ (f, toc q) ∈ dirs ∧ e.1 ≠ 0 ∧ e.2 ≠ 0 ∧ f.1 ≠ 0 ∧ f.2 ≠ 0 ∧
    2 * p.x + e.1 = 2 * q.x + f.1 ∧ 2 * p.y + e.2 = 2 * q.y + f.2

/-- A network with the areas and basins that belong to it: all rivers end, none flows over a corner of the cube, `sub` is the area
above each cell, and a river stays in one basin. Cells have the area `w`. -/
structure Consistent {R : Type} [Field R] (g : Grid) (w : Pos → R) (s : Net R) : Prop where
  outside : ∀ p, ¬ g.inside p → s.toc p = mval
  area : ∀ p, s.sub p = if s.toc p = mval then (mval : R) else upstream g s.toc w p
  basin : ∀ p q, g.inside p → Next g s.toc p q → s.bas q = s.bas p
  edge : g.nt = 1 ∨ ∀ p e, g.inside p → (e, s.toc p) ∈ dirs → ¬ Corner g (p.move e)
  drains : Drains g s.toc

end Verif.Spec.Hydrog
