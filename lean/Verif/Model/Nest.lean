import Verif.Model.CubeGrid
/-
Model of nests and of the global refinement of a cubed sphere grid.

Source: /repo/src/make-hgrid/create_gnomonic_cubic_grid.c `spherical_linear_interpolation` 2140-2187, `index_an_gr`
2196-2213, `setup_aligned_nest` 2230-2314, calls 414-458 and 928-955; sizes 187-201.

Simplifications: `double` is a real number and the thresholds are parameters; indices are natural numbers (make_hgrid
stops if an index of a nest or its halo is 0, and negative ones are not considered); the arrays `xc` and `yc` are one array of
pairs; the longitude and latitude of a parent corner are read without looking at the size of the array; an error ends the
program.
-/
namespace Verif.Nest

open Verif.Vec3 Verif.CubeGrid

/-- Reasons to stop -/
inductive Err where
  | outside
  | row
  | column
  | close
deriving DecidableEq

/-- Thresholds `EPSLN5`, `EPSLN8`, `EPSLN10` -/
structure Eps where
  e5 : ℝ
  e8 : ℝ
  e10 : ℝ

/-- `index_an_gr` -/
def index (jc npi ic maxI maxJ : Nat) (gr : Bool) : Except Err Nat :=
  if jc > maxJ ∧ gr = false then .error .row
  else if ic > maxI ∧ gr = false then .error .column
  else .ok ((if jc > maxJ then maxJ else jc) * npi + (if ic > maxI then maxI else ic))

noncomputable section

/-- `spherical_linear_interpolation` -/
def slerp (e : Eps) (beta : ℝ) (p1 p2 : LonLat) : Except Err LonLat :=
  if |p1.1 - p2.1| < e.e8 ∧ |p1.2 - p2.2| < e.e8 then .ok p1
  else
    let d1 := Real.sqrt (xyz p1 0 * xyz p1 0 + xyz p1 1 * xyz p1 1 + xyz p1 2 * xyz p1 2)
    let e1 : V ℝ := ![xyz p1 0 / d1, xyz p1 1 / d1, xyz p1 2 / d1]
    let d2 := Real.sqrt (xyz p2 0 * xyz p2 0 + xyz p2 1 * xyz p2 1 + xyz p2 2 * xyz p2 2)
    let e2 : V ℝ := ![xyz p2 0 / d2, xyz p2 1 / d2, xyz p2 2 / d2]
    let alpha := 1 - beta
    let omega := Real.arccos (e1 0 * e2 0 + e1 1 * e2 1 + e1 2 * e2 2)
    if |omega| < e.e5 then .error .close
    else
      let eb : V ℝ := fun k => (Real.sin (beta * omega) * e2 k + Real.sin (alpha * omega) * e1 k) / Real.sin omega
      .ok (toLonLat e.e10 eb)

/-- 2301-2302 -/
def wrap (p : LonLat) : LonLat :=
  let x := if p.1 > 2 * Real.pi then p.1 - 2 * Real.pi else p.1
  (if x < 0 then x + 2 * Real.pi else x, p.2)

/-- Point `(j, i)` of the nest, 2259-2302. -/
def point (e : Eps) (ni nj : Nat) (parent : Nat → LonLat) (r istart jstart : Nat) (gr : Bool) (j i : Nat) :
    Except Err LonLat := do
  let jc := jstart - 1 + j / r
  let jmod := j % r
  let ic := istart - 1 + i / r
  let imod := i % r
  let (q1, q2) ←
    if jmod = 0 then do
      let k ← index jc (ni + 1) ic ni nj gr
      let kpi ← index jc (ni + 1) (ic + 1) ni nj gr
      pure (parent k, parent kpi)
    else do
      let k ← index jc (ni + 1) ic ni nj gr
      let kpi ← index jc (ni + 1) (ic + 1) ni nj gr
      let kpj ← index (jc + 1) (ni + 1) ic ni nj gr
      let kpjpi ← index (jc + 1) (ni + 1) (ic + 1) ni nj gr
      let q1 ← slerp e ((jmod : ℝ) / r) (parent k) (parent kpj)
      let q2 ← slerp e ((jmod : ℝ) / r) (parent kpi) (parent kpjpi)
      pure (q1, q2)
  let q ← if imod = 0 then pure q1 else slerp e ((imod : ℝ) / r) q1 q2
  pure (wrap q)

/-- `setup_aligned_nest`: the rows of the nest. -/
def setup (e : Eps) (ni nj : Nat) (parent : Nat → LonLat) (halo r istart iend jstart jend : Nat) (gr : Bool) :
    Except Err (List (List LonLat)) :=
  if jstart < halo + 1 ∨ istart < halo + 1 ∨ jend + halo > nj ∨ iend + halo > ni then .error .outside
  else
    (List.range ((jend + 1 - jstart) * r + 1)).mapM fun j =>
      (List.range ((iend + 1 - istart) * r + 1)).mapM fun i => point e ni nj parent r istart jstart gr j i

/-- Global refinement of one tile `t` of a cube with `n` cells per tile and side. -/
def refine (e : Eps) (n r : Nat) (c : Nat → LonLat) (t : Nat) : Except Err (List (List LonLat)) :=
  setup e n n (fun k => c (t * (n + 1) * (n + 1) + k)) 0 r 1 n 1 n true

end

end Verif.Nest
