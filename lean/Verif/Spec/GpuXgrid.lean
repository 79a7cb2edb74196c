import Verif.Model.GpuXgrid
/-
Specification for the exchange grid of fregrid_gpu: what a plain loop over source cells and target cells finds, and
what is asked of the order of execution.
-/
namespace Verif.Spec
open Verif.GpuXgrid

variable {β : Type} (g : Job β)

/-- The exchange cells in the order of a plain double loop. -/
def gpuList : List (Rec β) :=
  (List.range' g.lo (g.hi - g.lo)).flatMap fun ij1 =>
    if g.mask ij1 then
      (List.range g.n2).filterMap fun ij2 => if g.near ij1 ij2 then (g.clip ij1 ij2).map (Rec.mk ij1 ij2) else none
    else []

/-- Every iteration of the first loop is executed once, every iteration of the second loop gets enough steps, and
every copy is made once. Nothing is said about the order. -/
structure Complete (pl : Plan) : Prop where
  order : pl.order.Perm (List.range' g.lo (g.hi - g.lo))
  inner : ∀ ij1, (pl.inner ij1).Perm (List.range g.n2)
  sched : ∀ ij1, g.lo ≤ ij1 → ij1 < g.hi → g.n2 ≤ pl.sched.count ij1
  copies : ∀ l, (pl.copyOrder l).Perm l

/-- The entries of the arrays that no iteration writes are zero from the start. -/
def Clean (b0 : Bounds) (cnt0 : Nat → Int) : Prop :=
  ∀ ij1 < g.n1, active g ij1 = false → b0.approx ij1 = 0 ∧ cnt0 ij1 = 0

end Verif.Spec
