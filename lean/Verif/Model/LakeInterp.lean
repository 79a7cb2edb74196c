import Mathlib.Analysis.Real.Pi.Bounds
/-
Interpolation of water bodies and wetlands to the model grid: /repo/tools/simple_hydrog/lakes/cr_lake_files.F90 617-691, horiz_interp.F90 `horiz_interp_solo_1d_src` 550-587,
`horiz_interp_new_1d_src` 299-352, `horiz_interp_base_2d` 437-463, horiz_interp_bilinear.F90 `horiz_interp_bilinear_new_1d` 65-185, `horiz_interp_bilinear` 919-1184 and `indp` 1234-1268.

Simplifications: `real` is a real number; arrays are functions from 1; the options are those with which cr_lake_files calls (`interp_method="bilinear"`, `mask_in` and `mask_out`, no missing
value, `src_modulo` and `grid_at_center` absent); messages are left out. `none`: the program ends (FATAL, abort), or an array is read beyond its end.
-/
noncomputable section
namespace Verif.LakeInterp
open Real Classical

/-- horiz_interp_bilinear.F90 52 -/
def eps : ℝ := 1 / 10 ^ 10
/-- 86 -/
def tpi : ℝ := 4 * (0.5 * π)

/-- 1255-1264: `k` more elements from number `i` -/
def scan (v : ℝ) (a : Nat → ℝ) : Nat → Nat → Option Nat
  | 0, _ => none
  | k + 1, i => if v ≤ a i then some (if v - a (i - 1) < a i - v then i - 1 else i) else scan v a k (i + 1)

/-- 1234-1268 -/
def indp (v : ℝ) (a : Nat → ℝ) (n : Nat) : Option Nat :=
  if ∃ i, 2 ≤ i ∧ i ≤ n ∧ a i < a (i - 1) then none
  else if a n < v then some n
  else if v < a 1 then some 1
  else scan v a (n - 1) 2

/-- 136-138 and 158-161: the element before -/
def before (v : ℝ) (a : Nat → ℝ) (n : Nat) : Option Nat :=
  match indp v a n with
  | none => none
  | some k =>
    let k1 := if v < a k then max (k - 1) 1 else k
    some (if a k1 = v ∧ k1 = n then max (k1 - 1) 1 else k1)

/-- 139-156: `is`, `ie`, `wtw` -/
def lonPoint (lon : ℝ) (a : Nat → ℝ) (n : Nat) : Option (Nat × Nat × ℝ) :=
  match before lon a n with
  | none => none
  | some s =>
    let e := min (s + 1) n
    if a s ≠ a e ∧ a s ≤ lon then some (s, e, (a e - lon) / (a e - a s))
    else if lon ≤ a 1 then some (n, 1, (a 1 - lon) / (a 1 - a n + tpi + eps))
    else some (n, 1, (a 1 - lon + tpi + eps) / (a 1 - a n + tpi + eps))

/-- 158-172: `js`, `je`, `wts` -/
def latPoint (lat : ℝ) (a : Nat → ℝ) (n : Nat) : Option (Nat × Nat × ℝ) :=
  match before lat a n with
  | none => none
  | some s =>
    let e := min (s + 1) n
    if a s ≠ a e ∧ a s ≤ lat then some (s, e, (a e - lat) / (a e - a s)) else some (s, e, 1)

/-- 108-117: the range of longitudes -/
def lonMin (a : Nat → ℝ) (n : Nat) : ℝ := if a 1 < 0 ∨ tpi < a n then a 1 else 0
def lonMax (a : Nat → ℝ) (n : Nat) : ℝ := if a 1 < 0 ∨ tpi < a n then a n else tpi

/-- 123-129 -/
def shift (lon : ℝ) (a : Nat → ℝ) (n : Nat) : ℝ :=
  if lon < lonMin a n then lon + tpi else if lonMax a n < lon then lon - tpi else lon

/-- Indices and weights of a point: `is`, `ie`, `wtw`, `js`, `je`, `wts`. -/
structure Weights where
  lon : Nat × Nat × ℝ
  lat : Nat × Nat × ℝ

/-- 108-182 for one point -/
def newPoint (a : Nat → ℝ) (n : Nat) (b : Nat → ℝ) (m : Nat) (p : ℝ × ℝ) : Option Weights :=
  if tpi + eps < a n - a 1 then none
  else match lonPoint (shift p.1 a n) a n, latPoint p.2 b m with
    | some x, some y => some ⟨x, y⟩
    | _, _ => none

/-- 1134-1183: data and mask of one point -/
def bilinear (w : Weights) (data mask : Nat → Nat → ℝ) : ℝ × ℝ :=
  let s := w.lon.1
  let e := w.lon.2.1
  let wtw := w.lon.2.2
  let wte := 1 - wtw
  let js := w.lat.1
  let je := w.lat.2.1
  let wts := w.lat.2.2
  let wtn := 1 - wts
  let dwtsum := data s js * mask s js * wtw * wts + data e js * mask e js * wte * wts + data e je * mask e je * wte * wtn + data s je * mask s je * wtw * wtn
  let wtsum := mask s js * wtw * wts + mask e js * wte * wts + mask e je * wte * wtn + mask s je * wtw * wtn
  if wtsum < eps then (0, 0) else (dwtsum / wtsum, wtsum)

/-- horiz_interp.F90 333-338: middles of cells -/
def middle (b : Nat → ℝ) (i : Nat) : ℝ := (b i + b (i + 1)) * 0.5

/-- 437-463: `data_out` and `mask_out` have the contents `mem` before. The case `BILINEAR` is empty. -/
def base2d (_ws : List Weights) (_data _mask : Nat → Nat → ℝ) (mem : List (ℝ × ℝ)) : List (ℝ × ℝ) := mem

/-- 550-587: `n` and `m` cells with the given boundaries, the points of the model grid, and what the arrays held before. -/
def solo (lonb latb : Nat → ℝ) (n m : Nat) (data mask : Nat → Nat → ℝ) (points mem : List (ℝ × ℝ)) : Option (List (ℝ × ℝ)) :=
  match points.mapM (newPoint (middle lonb) n (middle latb) m) with
  | none => none
  | some ws => some (base2d ws data mask mem)

/-- cr_lake_files.F90 636-643: the lake fraction of the points of a tile; `missing` is `mval_mdl`, `dtr` turns degrees into radians. -/
def lakeFraction (dtr missing : ℝ) (lonb latb : Nat → ℝ) (n m : Nat) (data : Nat → Nat → ℝ) (points mem : List (ℝ × ℝ)) : Option (List ℝ) :=
  match solo (fun i => lonb i * dtr) (fun j => latb j * dtr) n m data (fun i j => if data i j = missing then 0 else 1) (points.map fun p => (p.1 * dtr, p.2 * dtr)) mem with
  | none => none
  | some l => some (l.map fun d => if d.2 = 0 then missing else d.1)

end Verif.LakeInterp
