import Verif.Model.GpuConserve
/-
Specification for the remapping by fregrid_gpu: which schedules of the unprotected loop are harmless, and what must
hold of a variable so that the GPU version treats it like the CPU version.
-/
namespace Verif.Spec
open Verif.Conserve Verif.GpuConserve

variable {K : Type}

/-- The iterations run one after the other, in some order: every iteration takes its two steps without another in
between. -/
def OneByOne (n : Nat) (sched : List Nat) : Prop :=
  ∃ l : List Nat, l.Perm (List.range n) ∧ sched = l.flatMap fun i => [i, i]

/-- What the two versions agree on: source cells lie in their rows; without a missing value no datum is -MAXVAL and
no gradient is masked. -/
structure Plain [Field K] [LinearOrder K] (cf : Conf K) (s : Src K) (cells : List (XCell K)) : Prop where
  inside : ∀ c ∈ cells, c.i1 < cf.nx1 c.t1
  data : cf.hasMissing = false → ∀ c ∈ cells, srcVal cf s c ≠ cf.missing
  mask : cf.hasMissing = false → ∀ c ∈ cells, s.gradMask c.t1 (n1 cf c) = false

end Verif.Spec
