import Mathlib.Order.Defs.LinearOrder
import Mathlib.Tactic.TypeStar
/-
Model of `qsort_index`, src/river-regrid/river_regrid.c 1537-1576.

The two arrays `array` and `rank`, whose elements are always exchanged
together, are one array of pairs.  Indices are natural numbers: the function
calls itself with indices of at least `start` only, and the outermost call with
a negative `end` does nothing (see `sortBasin` in Model/River.lean).  The
`while` loop and the recursion are given a number of steps; `none` means that
they need more.
-/
namespace Verif.QSort

/-- `swap(a[i], a[j], t)`, 1537. -/
def swap {α : Type*} (a : Nat → α) (i j : Nat) : Nat → α :=
  fun k => if k = i then a j else if k = j then a i else a k

section
variable {K : Type*} [LinearOrder K]

/-- `while(l < r && array[r] >= pivot) --r;`, 1555-1558. -/
def skip (a : Nat → K × Nat) (pivot : K) (l : Nat) : Nat → Nat
  | 0 => 0
  | r + 1 => if l < r + 1 ∧ (a (r + 1)).1 ≥ pivot then skip a pivot l r else r + 1

/-- `while(l < r) { ... }`, 1551-1562: array, `l` and `r` at its end. -/
def partLoop (pivot : K) : Nat → (Nat → K × Nat) → Nat → Nat → Option ((Nat → K × Nat) × Nat × Nat)
  | 0, _, _, _ => none
  | fuel + 1, a, l, r =>
    if l < r then
      if (a l).1 ≤ pivot then partLoop pivot fuel a (l + 1) r
      else
        let r' := skip a pivot l r
        partLoop pivot fuel (swap a l r') l r'
    else some (a, l, r)

/-- `qsort_index`. -/
def qsort (loopFuel : Nat) : Nat → (Nat → K × Nat) → Nat → Nat → Option (Nat → K × Nat)
  | 0, _, _, _ => none
  | fuel + 1, a, start, stop =>
    if stop > start then
      let pivotIndex := start + (stop - start) / 2
      let a := swap a start pivotIndex
      let pivot := (a start).1
      match partLoop pivot loopFuel a (start + 1) stop with
      | none => none
      | some (a, l, r) =>
        if l ≠ stop ∨ (a stop).1 > pivot then
          let l := l - 1
          let a := swap a start l
          match qsort loopFuel fuel a start l with
          | none => none
          | some a => qsort loopFuel fuel a r stop
        else
          let a := swap a start l
          qsort loopFuel fuel a start (l - 1)
    else some a

end
end Verif.QSort
