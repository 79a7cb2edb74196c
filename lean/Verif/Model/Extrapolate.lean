import Mathlib.Algebra.Order.Field.Basic
/-
Model of the extrapolation of missing values in fregrid.

Source: /repo/src/fre-grid/fregrid_util.c `do_extrapolate` 2662-2799, `fill_boundaries` 2802-2812.

Simplifications: numbers are elements of an ordered field and the cosine is a parameter; `tmp`, with one more row and
column on each side, is a function of row and column; `REL_COEF`, `MAX_ITER` and `EPSLN10` are parameters. At least two
rows and two columns, otherwise the code reads outside its arrays.
-/
namespace Verif.Extrapolate

variable {K : Type} [Field K] [LinearOrder K]

/-- `dxu`, `dyu` (2683-2688): differences of `n` coordinates. -/
def du (n : Nat) (x : Nat → K) (i : Nat) : K := if i + 1 < n then x (i + 1) - x i else x (n - 1) - x (n - 2)

/-- `dxt`, `dyt` -/
def dt (n : Nat) (x : Nat → K) (i : Nat) : K :=
  if i = 0 then 1 / 2 * (du n x 1 + du n x 0) else 1 / 2 * (du n x i + du n x (i - 1))

/-- `latp` (2697-2700) -/
def latp (nj : Nat) (lat : Nat → K) (j : Nat) : K :=
  if j + 1 = nj then lat j + 1 / 2 * (lat j - lat (j - 1)) else 1 / 2 * (lat j + lat (j + 1))

/-- `latm` (2702-2705) -/
def latm (lat : Nat → K) (j : Nat) : K :=
  if j = 0 then lat j - 1 / 2 * (lat (j + 1) - lat j) else 1 / 2 * (lat j + lat (j - 1))

/-- Coefficients of the four neighbours of a cell. -/
structure Coef (K : Type) where
  n : K
  s : K
  e : K
  w : K

/-- 2706-2719 -/
def coef (cos : K → K) (ni nj : Nat) (lon lat : Nat → K) (j i : Nat) : Coef K :=
  let csj := cos (latp nj lat j)
  let csm := cos (latm lat j)
  let cstr := 1 / cos (lat j)
  let n := csj * cstr / (dt nj lat j * du nj lat j)
  let s := csm * cstr / (dt nj lat j * du nj lat (j - 1))
  let e := cstr * cstr / (du ni lon i * dt ni lon i)
  let w := cstr * cstr / (du ni lon (i - 1) * dt ni lon i)
  let c := 1 / (n + s + e + w)
  ⟨n * c, s * c, e * c, w * c⟩

/-- `fill_boundaries` -/
def fill (ni nj : Nat) (cyclic : Bool) (t : Nat → Nat → K) (j i : Nat) : K :=
  if cyclic ∧ 1 ≤ j ∧ j ≤ nj then (if i = 0 then t j ni else if i = ni + 1 then t j 1 else t j i) else t j i

/-- `res` times `sor` of cell `(j, i)`, 2757-2759 and 2764. -/
def change (c : Nat → Nat → Coef K) (sor : Nat → Nat → K) (t : Nat → Nat → K) (j i : Nat) : K :=
  ((c j i).w * t (j + 1) i + (c j i).e * t (j + 1) (i + 2) + (c j i).s * t j (i + 1) + (c j i).n * t (j + 2) (i + 1)
    - t (j + 1) (i + 1)) * sor j i

/-- `tmp` after one pass, 2761-2767. -/
def relax (ni nj : Nat) (c : Nat → Nat → Coef K) (sor : Nat → Nat → K) (t : Nat → Nat → K) (j i : Nat) : K :=
  if 1 ≤ j ∧ j ≤ nj ∧ 1 ≤ i ∧ i ≤ ni then t j i + change c sor t (j - 1) (i - 1) else t j i

/-- `resmax` -/
def resmax (ni nj : Nat) (c : Nat → Nat → Coef K) (sor : Nat → Nat → K) (t : Nat → Nat → K) : K :=
  (List.range nj).foldl (fun r j => (List.range ni).foldl (fun r i => max (|change c sor t j i|) r) r) 0

/-- The loop 2750-2781 with the given number of passes left; the result is `tmp` and the last `resmax`, which is
printed. -/
def iterate (ni nj : Nat) (cyclic : Bool) (c : Nat → Nat → Coef K) (sor : Nat → Nat → K) (stop : K) :
    Nat → (Nat → Nat → K) → (Nat → Nat → K) × K
  | 0, t => (t, 0)
  | k + 1, t =>
    let t' := relax ni nj c sor t
    let r := resmax ni nj c sor t
    if r ≤ stop ∨ k = 0 then (t', r) else iterate ni nj cyclic c sor stop k (fill ni nj cyclic t')

/-- `sor` for one level, 2739-2744. -/
def sorOf (relCoef eps miss : K) (data : Nat → Nat → K) (j i : Nat) : K :=
  if |data j i - miss| ≤ eps then relCoef else 0

/-- `tmp` at the start of one level, 2735-2745; `t` is `tmp` at the end of the level before. -/
def start (ni nj : Nat) (eps miss : K) (data t : Nat → Nat → K) (j i : Nat) : K :=
  if 1 ≤ j ∧ j ≤ nj ∧ 1 ≤ i ∧ i ≤ ni then
    (if |data (j - 1) (i - 1) - miss| ≤ eps then t j i else data (j - 1) (i - 1))
  else t j i

/-- Parameters of the whole function. -/
structure Par (K : Type) where
  ni : Nat
  nj : Nat
  cyclic : Bool
  cos : K → K
  lon : Nat → K
  lat : Nat → K
  relCoef : K
  eps : K
  miss : K
  stop : K
  maxIter : Nat

/-- One level: `tmp` and the printed `resmax`. -/
def level (p : Par K) (data t : Nat → Nat → K) : (Nat → Nat → K) × K :=
  iterate p.ni p.nj p.cyclic (coef p.cos p.ni p.nj p.lon p.lat) (sorOf p.relCoef p.eps p.miss data) p.stop p.maxIter
    (fill p.ni p.nj p.cyclic (start p.ni p.nj p.eps p.miss data t))

/-- `do_extrapolate`: `tmp` at the end of each level, starting with 0 (2727-2732), and the `resmax` printed. -/
def run (p : Par K) (data : Nat → Nat → Nat → K) : Nat → (Nat → Nat → K) × K
  | 0 => level p (data 0) (fun _ _ => 0)
  | k + 1 => level p (data (k + 1)) (run p data k).1

/-- `data_out` of level `k`, row `j` and column `i`, 2771-2775. -/
def out (p : Par K) (data : Nat → Nat → Nat → K) (k j i : Nat) : K := (run p data k).1 (j + 1) (i + 1)

end Verif.Extrapolate
