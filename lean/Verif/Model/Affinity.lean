import Mathlib.Data.List.Range
/-
Cores of threads: /repo/lib/libfrencutils/affinity.c 59-139 (on Linux, HAVE_SCHED_GETAFFINITY), and its use in /repo/src/fre-grid/fregrid.c 693-702.

Simplifications: a mask is a function from the number of a core, `CPU_SETSIZE` is 1024; `sched_getaffinity` succeeds (else the mask is empty, which is a case of it); `sched_setaffinity` sets
the cores of the mask that the system permits, and fails if there is none; `CPU_SET` of a number outside does nothing. Messages are left out. `none`: a write beyond the end of an array.
-/
namespace Verif.Affinity

/-- `CPU_SETSIZE` -/
def setSize : Nat := 1024

abbrev Mask := Nat → Bool

/-- 74-79: the first core from number `c`, `k` more -/
def firstFrom (m : Mask) : Nat → Nat → Int
  | 0, _ => -1
  | k + 1, c => if m c then c else firstFrom m k (c + 1)

/-- 63-82 -/
def getAffinity (m : Mask) : Int := firstFrom m setSize 0

/-- 109-117: `count`, the array, `k` more cores from number `c` -/
def fill (m : Mask) (fsz : Nat) : Nat → Nat → Nat → List Nat → Option (Int × List Nat)
  | 0, _, count, out => some (count, out)
  | k + 1, c, count, out =>
    if m c then
      if fsz < count then some (-1, out)
      else if count < out.length then fill m fsz k (c + 1) (count + 1) (out.set count c) else none
    else fill m fsz k (c + 1) count out

/-- 88-122 -/
def getCpuset (m : Mask) (fsz : Nat) (out : List Nat) : Option (Int × List Nat) := fill m fsz setSize 0 0 out

/-- 127-139: the mask of the thread afterwards and the result; `permitted` are the cores that the system permits. -/
def setAffinity (permitted : Mask) (m : Mask) (cpu : Int) : Mask × Int :=
  if 0 ≤ cpu ∧ cpu < setSize ∧ permitted cpu.toNat = true then (fun c => decide ((c : Int) = cpu), 0) else (m, -1)

/-- fregrid.c 698-700: the mask of thread `k` after the start; the result of `set_cpu_affinity` is not used. -/
def threadMask (permitted m : Mask) (k : Nat) : Mask := (setAffinity permitted m (getAffinity m + k)).1

end Verif.Affinity
