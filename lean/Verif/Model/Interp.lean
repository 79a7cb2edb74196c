import Mathlib.Algebra.Order.Field.Basic
/-
Model of one-dimensional interpolation.

Source: /repo/lib/libfrencutils/mosaic_util.c `nearest_index` 81-110;
/repo/lib/libfrencutils/interp.c `cubic_spline_sp` 49-149, `cubic_spline` 176-254,
`linear_vertical_interp` 360-396; /repo/src/fre-grid/fregrid_util.c `setup_vertical_interp` 757-787,
`do_vertical_interp` 789-820.

Simplifications: the numbers are an arbitrary ordered field instead of doubles; arrays are functions on
the natural numbers together with a size, and reading outside an array is the outcome `oob` wherever the
index is computed (loops over 0..size-1 are in range as written); horizontal points are independent, so
the vertical routines are modelled for one column; `nk1`, `size1` at least 1.
-/
namespace Verif.Interp

variable {K : Type} [Field K] [LinearOrder K]

/-- Ways of ending other than with a result: the calls of `error_handler`, and reading or writing outside
an array. -/
inductive Fail where
  | notMonotonic
  | outside
  | tooSmall
  | oob
  deriving DecidableEq

/-! ### nearest_index (mosaic_util.c 81-110) -/

/-- The `while` loop, 97-105. `fuel` counts the rounds allowed by `i < ia`. -/
def nearestLoop (v : K) (a : Nat → K) (ia : Nat) : Nat → Nat → Option Nat
  | 0, _ => none
  | fuel + 1, i =>
    if ia ≤ i + 1 then none
    else if v ≤ a (i + 1) then
      some (if a (i + 1) - v > v - a i then i else i + 1)
    else nearestLoop v a ia fuel (i + 1)

/-- `nearest_index`. -/
def nearestIndex (v : K) (a : Nat → K) (ia : Nat) : Except Fail Nat :=
  if (List.range (ia - 1)).any (fun i => decide (a (i + 1) < a i)) then .error .notMonotonic
  else if ia = 0 then .error .oob
  else if v < a 0 then .ok 0
  else if a (ia - 1) < v then .ok (ia - 1)
  else match nearestLoop v a ia ia 0 with
    | some r => .ok r
    | none => .error .oob

/-! ### Checks common to the routines of interp.c -/

/-- `grid[i] <= grid[i-1]` for some `i` (55-57, 182-184, 366-371). -/
def notIncreasing (a : Nat → K) (n : Nat) : Bool :=
  (List.range (n - 1)).any fun i => decide (a (i + 1) ≤ a i)

/-- Some target lies outside the source grid (59-61, 186-188). -/
def someOutside (x : Nat → K) (size1 : Nat) (g : Nat → K) (size2 : Nat) : Bool :=
  (List.range size2).any fun i => decide (g i < x 0) || decide (x (size1 - 1) < g i)

/-- Lower node of the interval used (126-137, 232-243). -/
def klo (v : K) (x : Nat → K) (size1 : Nat) : Except Fail Nat := do
  let n ← nearestIndex v x size1
  pure (if x n < v then n else if n = 0 then n else n - 1)

/-! ### linear_vertical_interp (interp.c 360-396), one column -/

/-- Value at target level `v` (374-394). -/
def linearAt (nk1 : Nat) (x d : Nat → K) (v : K) : Except Fail K := do
  let n ← nearestIndex v x nk1
  if x n < v then
    if n + 1 < nk1 then
      let w := (v - x n) / (x (n + 1) - x n)
      pure ((1 - w) * d n + w * d (n + 1))
    else .error .oob
  else if n = 0 then pure (d n)
  else
    let w := (v - x (n - 1)) / (x n - x (n - 1))
    pure ((1 - w) * d (n - 1) + w * d n)

def linearVertical (nk1 nk2 : Nat) (x g d : Nat → K) : Except Fail (List K) :=
  if notIncreasing x nk1 then .error .notMonotonic
  else if notIncreasing g nk2 then .error .notMonotonic
  else if x 0 > g 0 then .error .outside
  else if x (nk1 - 1) < g (nk2 - 1) then .error .outside
  else (List.range nk2).mapM fun k => linearAt nk1 x d (g k)

/-! ### setup_vertical_interp, do_vertical_interp (fregrid_util.c 757-820), one column -/

/-- 765-767: first target level not above the source levels. -/
def kstart (x g : Nat → K) (nk2 : Nat) : Nat :=
  ((List.range nk2).takeWhile fun k => decide (g k < x 0)).length

/-- 768-770: number of target levels up to the last one not below the source levels, that is,
`kend + 1`. -/
def kendSucc (x : Nat → K) (nk1 : Nat) (g : Nat → K) : Nat → Nat
  | 0 => 0
  | k + 1 => if g k ≤ x (nk1 - 1) then k + 1 else kendSucc x nk1 g k

/-- 780-786. -/
def needInterp (nk1 nk2 : Nat) (x g : Nat → K) (eps : K) : Bool :=
  !(decide (nk1 = nk2) && (List.range nk1).all fun k => decide (|g k - x k| ≤ eps))

/-- `do_vertical_interp` for one column; `d` is the data on input (`tmp`). The result has an entry for
each target level. The loop at 812 starts at `kend`, which is -1 if all target levels are below the
source levels; then the array is written at a negative index. With `kend = kstart - 1` the linear
interpolation is called for zero levels; its checks then compare levels `kstart` and `kstart - 1`. -/
def doVertical (nk1 nk2 : Nat) (x g d : Nat → K) (eps : K) : Except Fail (List K) :=
  if needInterp nk1 nk2 x g eps = false then .ok ((List.range nk1).map d)
  else
    let ks := kstart x g nk2
    let ke := kendSucc x nk1 g nk2
    -- 809-811
    let f1 : Nat → Option K := fun k => if k < ks then some (d 0) else none
    -- 812-814
    if ke = 0 then .error .oob
    else
      let f2 : Nat → Option K := fun k => if ke - 1 ≤ k ∧ k < nk2 then some (d (nk1 - 1)) else f1 k
      let n2 := ke - ks
      if n2 = 0 then
        if nk2 ≤ ks then .error .oob
        else if notIncreasing x nk1 then .error .notMonotonic
        else if x 0 > g ks then .error .outside
        else if x (nk1 - 1) < g (ks - 1) then .error .outside
        else .ok ((List.range nk2).map fun k => (f2 k).getD 0)
      else do
        let r ← linearVertical nk1 n2 x (fun k => g (ks + k)) d
        pure ((List.range nk2).map fun k =>
          if ks ≤ k ∧ k < ke then r.getD (k - ks) 0 else (f2 k).getD 0)

/-! ### cubic_spline_sp (interp.c 49-149) -/

section sp
variable (size1 : Nat) (x y : Nat → K)

def spDh (k : Nat) : K := x (k + 1) - x k
def spDelta (k : Nat) : K := (y (k + 1) - y k) / spDh x k

/-- 79-88 -/
def spInner (k : Nat) : K :=
  if spDelta x y k * spDelta x y (k - 1) > 0 then
    let w1 := 2 * spDh x k + spDh x (k - 1)
    let w2 := spDh x k + 2 * spDh x (k - 1)
    (w1 + w2) / (w1 / spDelta x y (k - 1) + w2 / spDelta x y k)
  else 0

/-- End slope from the steps and secants of the end interval (`h0`, `e0`) and its neighbour (93-102,
104-112). -/
def spEnd (h0 h1 e0 e1 : K) : K :=
  let d := ((2 * h0 + h1) * e0 - h0 * e1) / (h0 + h1)
  if d * e0 < 0 then 0
  else if e0 * e1 < 0 ∧ |d| > |3 * e0| then 3 * e0
  else d

/-- The slopes `d[k]`. -/
def spSlope (k : Nat) : K :=
  if k = 0 then spEnd (spDh x 0) (spDh x 1) (spDelta x y 0) (spDelta x y 1)
  else if k = size1 - 1 then
    spEnd (spDh x (size1 - 2)) (spDh x (size1 - 3)) (spDelta x y (size1 - 2)) (spDelta x y (size1 - 3))
  else spInner x y k

/-- 117-122 -/
def spC (k : Nat) : K := (3 * spDelta x y k - 2 * spSlope size1 x y k - spSlope size1 x y (k + 1)) / spDh x k
def spB (k : Nat) : K :=
  (spSlope size1 x y k - 2 * spDelta x y k + spSlope size1 x y (k + 1)) / (spDh x k * spDh x k)

/-- 138-140 -/
def spEval (v : K) : Except Fail K := do
  let k ← klo v x size1
  let s := v - x k
  pure (y k + s * (spSlope size1 x y k + s * (spC size1 x y k + s * spB size1 x y k)))

/-- Linear case, 64-68, 191-195. -/
def twoPoint (v : K) : K := (y 1 - y 0) / (x 1 - x 0) * (v - x 0) + y 0

def cubicSplineSp (size2 : Nat) (g : Nat → K) : Except Fail (List K) :=
  if notIncreasing x size1 then .error .notMonotonic
  else if someOutside x size1 g size2 then .error .outside
  else if size1 < 2 then .error .tooSmall
  else if size1 = 2 then .ok ((List.range size2).map fun k => twoPoint x y (g k))
  else (List.range size2).mapM fun k => spEval size1 x y (g k)

end sp

/-! ### cubic_spline (interp.c 176-254) -/

section cs
variable (size1 : Nat) (x y : Nat → K)

/-- End conditions: `none` stands for a value above .99e30. -/
abbrev EndSlope (K : Type) := Option K

/-- First pass (198-214): the pairs `y2[i]`, `u[i]` for `i` up to `size1-2`. -/
def csForward (yp1 : EndSlope K) : Nat → K × K
  | 0 => match yp1 with
    | none => (0, 0)
    | some s => (-1 / 2, 3 / (x 1 - x 0) * ((y 1 - y 0) / (x 1 - x 0) - s))
  | i + 1 =>
    let sig := (x (i + 1) - x i) / (x (i + 2) - x i)
    let p := sig * (csForward yp1 i).1 + 2
    ((sig - 1) / p,
      (6 * ((y (i + 2) - y (i + 1)) / (x (i + 2) - x (i + 1)) - (y (i + 1) - y i) / (x (i + 1) - x i)) /
        (x (i + 2) - x i) - sig * (csForward yp1 i).2) / p)

/-- `qn`, `un` (216-223). -/
def csEnd (ypn : EndSlope K) : K × K :=
  match ypn with
  | none => (0, 0)
  | some s => (1 / 2, 3 / (x (size1 - 1) - x (size1 - 2)) *
      (s - (y (size1 - 1) - y (size1 - 2)) / (x (size1 - 1) - x (size1 - 2))))

/-- `y2[size1-1]` (225). -/
def csLast (yp1 ypn : EndSlope K) : K :=
  let e := csEnd size1 x y ypn
  let f := csForward x y yp1 (size1 - 2)
  (e.2 - e.1 * f.2) / (e.1 * f.1 + 1)

/-- Second pass (227): `y2[size1-1-j]`. -/
def csBack (yp1 ypn : EndSlope K) : Nat → K
  | 0 => csLast size1 x y yp1 ypn
  | j + 1 =>
    let f := csForward x y yp1 (size1 - 2 - j)
    f.1 * csBack yp1 ypn j + f.2

/-- Second derivatives `y2[k]` after line 227. -/
def csY2 (yp1 ypn : EndSlope K) (k : Nat) : K := csBack size1 x y yp1 ypn (size1 - 1 - k)

/-- 244-249 -/
def csEval (yp1 ypn : EndSlope K) (v : K) : Except Fail K := do
  let k ← klo v x size1
  let h := x (k + 1) - x k
  let a := (x (k + 1) - v) / h
  let b := (v - x k) / h
  pure (a * y k + b * y (k + 1) +
    ((a ^ 3 - a) * csY2 size1 x y yp1 ypn k + (b ^ 3 - b) * csY2 size1 x y yp1 ypn (k + 1)) * h ^ 2 / 6)

def cubicSpline (yp1 ypn : EndSlope K) (size2 : Nat) (g : Nat → K) : Except Fail (List K) :=
  if notIncreasing x size1 then .error .notMonotonic
  else if someOutside x size1 g size2 then .error .outside
  else if size1 < 2 then .error .tooSmall
  else if size1 = 2 then .ok ((List.range size2).map fun k => twoPoint x y (g k))
  else (List.range size2).mapM fun k => csEval size1 x y yp1 ypn (g k)

end cs

end Verif.Interp
