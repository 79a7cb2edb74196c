import Verif.Model.Interp
import Mathlib.Algebra.Order.Floor.Ring
import Mathlib.Analysis.SpecialFunctions.Trigonometric.Basic
/-
make_topog with `--topog_type idealized`: /repo/src/make-topog/topog.c `set_depth` 306-349, `create_idealized_topog` 174-282.

Simplifications: numbers are real; one process (C140 has the call in several processes).
-/
namespace Verif.IdealTopog
open Verif.Interp

/-- `nearest_index` stops because the array is not increasing; or memory outside an array is used. -/
inductive Err
  | stopped
  | undefined
  deriving DecidableEq

/-- A trapezoid: latitude, first and last longitude of the southern edge, then of the northern edge. -/
structure Trapezoid where
  alat1 : ℝ
  slon1 : ℝ
  elon1 : ℝ
  alat2 : ℝ
  slon2 : ℝ
  elon2 : ℝ

/-- A depth for column `i` and row `j`. -/
abbrev Depths := Nat → Nat → ℝ

/-- `nearest_index(value, a, n)` for an array of `len` elements: all elements below `n` are read. -/
noncomputable def near (v : ℝ) (a : Nat → ℝ) (len n : Nat) : Except Err Nat :=
  if len < n then .error .undefined
  else match nearestIndex v a n with
    | .ok k => .ok k
    | .error .notMonotonic => .error .stopped
    | .error _ => .error .undefined

/-- Rows and columns of the corners. -/
structure Corners where
  js : Nat
  je : Nat
  is1 : Nat
  ie1 : Nat
  is2 : Nat
  ie2 : Nat

/-- 312-325. The last search goes over `ny` elements of `xbnd` (323). -/
noncomputable def corners (nx ny : Nat) (xb yb : Nat → ℝ) (t : Trapezoid) : Except Err Corners := do
  let j1 ← near t.alat1 yb ny ny
  let j2 ← near t.alat2 yb ny ny
  let i1 ← near t.slon1 xb nx nx
  let i2 ← near t.elon1 xb nx nx
  let i3 ← near t.slon2 xb nx nx
  let i4 ← near t.elon2 xb nx ny
  pure ⟨min j1 j2, max j1 j2, min i1 i2, max i1 i2, min i3 i4, max i3 i4⟩

/-- 341-343, 344-346: the nearest number, with a nudge of 1e-5. `a` and `b` are the ends in the rows `js` and `je`. -/
noncomputable def lerp (js je a b j : Nat) : Int :=
  let rdj : ℝ := if js = je then 1 else 1 / ((je : ℝ) - (js : ℝ))
  let d : ℝ := rdj * (((j : ℝ) - js) * b + ((je : ℝ) - j) * a) + 1 / 100000
  let c := ⌈d⌉
  if (c : ℝ) - d > 1 / 2 then c - 1 else c

/-- 339-347: `n` rows from row `j` on, `is` and `ie` are the columns of this row. -/
noncomputable def rows (nx : Nat) (c : Corners) (v : ℝ) : Nat → Nat → Int → Int → Depths → Except Err Depths
  | 0, _, _, _, d => .ok d
  | n + 1, j, is, ie, d =>
    if is ≤ ie ∧ (is < 0 ∨ (nx : Int) ≤ ie) then .error .undefined
    else rows nx c v n (j + 1) (lerp c.js c.je c.is1 c.is2 j) (lerp c.js c.je c.ie1 c.ie2 j)
      (fun i' j' => if j' = j ∧ is ≤ (i' : Int) ∧ (i' : Int) ≤ ie then v else d i' j')

/-- `set_depth` -/
noncomputable def setDepth (nx ny : Nat) (xb yb : Nat → ℝ) (t : Trapezoid) (v : ℝ) (d : Depths) : Except Err Depths := do
  let c ← corners nx ny xb yb t
  rows nx c v (c.je - c.js + 1) c.js c.is1 c.ie1 d

/-- Several calls of `set_depth` with the same depth. -/
noncomputable def setAll (nx ny : Nat) (xb yb : Nat → ℝ) (v : ℝ) : List Trapezoid → Depths → Except Err Depths
  | [], d => .ok d
  | t :: ts, d => do
    let d' ← setDepth nx ny xb yb t v d
    setAll nx ny xb yb v ts d'

/-- The continents (195-253). -/
noncomputable def continents : List Trapezoid :=
  [⟨-90, 0, 360, -80, 0, 360⟩, ⟨-80, 335, 360, -70, 360, 360⟩, ⟨-80, 0, 360, -70, 0, 170⟩, ⟨-80, 225, 300, -68, 285, 300⟩,
   ⟨-70, 0, 155, -67, 50, 145⟩, ⟨-35, 116, 120, -31, 114, 130⟩, ⟨-38, 140, 151, -31, 130, 151⟩, ⟨-31, 115, 153, -20, 113, 149⟩,
   ⟨-20, 113, 149, -11, 131, 143⟩, ⟨-50, 286, 292, -40, 287, 298⟩, ⟨-40, 287, 298, -20, 290, 320⟩, ⟨-20, 290, 320, -16, 279, 325⟩,
   ⟨-16, 279, 325, 0, 280, 310⟩, ⟨0, 280, 310, 11, 285, 300⟩, ⟨6, 282, 285, 20, 255, 263⟩, ⟨20, 255, 263, 30, 245, 266⟩,
   ⟨25, 278, 280, 30, 275, 279⟩, ⟨30, 245, 280, 40, 236, 286⟩, ⟨40, 236, 286, 50, 236, 303⟩, ⟨50, 236, 303, 60, 220, 296⟩,
   ⟨60, 195, 296, 65, 220, 296⟩, ⟨65, 220, 296, 70, 198, 288⟩, ⟨70, 198, 220, 72, 203, 203⟩, ⟨70, 230, 290, 75, 240, 280⟩,
   ⟨60, 315, 315, 75, 302, 341⟩, ⟨-35, 19, 28, 6, 8, 50⟩, ⟨6, 0, 50, 18, 0, 56⟩, ⟨18, 0, 56, 26, 0, 59⟩,
   ⟨6, 350, 360, 18, 342, 360⟩, ⟨18, 342, 360, 26, 345, 360⟩, ⟨26, 345, 360, 40, 353, 360⟩, ⟨40, 353, 360, 50, 360, 360⟩,
   ⟨8, 77, 78, 26, 65, 90⟩, ⟨4, 99, 100, 26, 90, 115⟩, ⟨26, 0, 126, 40, 0, 122⟩, ⟨40, 0, 130, 50, 0, 140⟩,
   ⟨50, 0, 140, 60, 8, 140⟩, ⟨60, 8, 163, 65, 13, 180⟩, ⟨65, 13, 188, 70, 20, 180⟩, ⟨70, 70, 180, 75, 90, 100⟩]

/-- The ridges (273-275) and (279). -/
noncomputable def ridges : List Trapezoid := [⟨-20, 340, 350, 30, 315, 325⟩, ⟨30, 315, 325, 60, 340, 330⟩, ⟨-60, 260, 230, 40, 200, 180⟩]
noncomputable def ridge : List Trapezoid := [⟨-50, 240, 240, 30, 190, 190⟩]

/-- 257-267: undulations where there is ocean. -/
noncomputable def undulate (nx ny : Nat) (bottom minDepth : ℝ) (d : Depths) : Depths := fun i j =>
  if 0 < d i j then
    max (bottom * (1 - 4 / 10 * |Real.cos (((j : ℝ) + 1) * Real.pi / ((ny : ℝ) + 1)) * Real.sin (((i : ℝ) + 1) * 2 * Real.pi / ((nx : ℝ) + 1))|)) minDepth
  else d i j

/-- 190-193: the axes, from the first row and the first column of corners. -/
noncomputable def xbnd (x : Nat → Nat → ℝ) (i : Nat) : ℝ := (x i 0 + x (i + 1) 0) * (1 / 2)
noncomputable def ybnd (y : Nat → Nat → ℝ) (j : Nat) : ℝ := (y 0 j + y 0 (j + 1)) * (1 / 2)

/-- `create_idealized_topog` -/
noncomputable def idealized (nx ny : Nat) (x y : Nat → Nat → ℝ) (bottom minDepth : ℝ) : Except Err Depths := do
  let d1 ← setAll nx ny (xbnd x) (ybnd y) 0 continents (fun _ _ => bottom)
  let d2 ← setAll nx ny (xbnd x) (ybnd y) (666 / 1000 * bottom) ridges (undulate nx ny bottom minDepth d1)
  setAll nx ny (xbnd x) (ybnd y) (5 / 10 * bottom) ridge d2

end Verif.IdealTopog
