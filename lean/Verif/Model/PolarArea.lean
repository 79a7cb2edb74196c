import Verif.Model.PolyArea
import Verif.Model.Vec3
/-
Areas of polygons with option `--rotate_poly` of make_hgrid and make_coupler_mosaic: /repo/lib/libfrencutils/mosaic_util.c `poly_area` 474-515, `crosses_pole` 1669-1681; `poly_area_main`, `rotate_poly` and
`is_near_pole` are those of Model/PolyArea.lean and Model/Vec3.lean.

Simplifications: numbers are real; `SMALL_VALUE`, `RADIUS`, the threshold of 1 degree and the tolerance of `xyz2latlon` are parameters. `none`: the program ends (`error_handler`).
-/
namespace Verif.PolarArea
open Verif.Vec3 Verif.PolyArea

/-- `crosses_pole` on the longitudes -/
def crossesPole (small : ℝ) (xs : List ℝ) : Prop :=
  ∃ i < xs.length, |xs.getD i 0 - xs.getD ((i + xs.length - 1) % xs.length) 0 + Real.pi| < small ∨ |xs.getD i 0 - xs.getD ((i + xs.length - 1) % xs.length) 0 - Real.pi| < small

open Classical in
/-- `poly_area`; `flag`: `rotate_poly_flag` -/
noncomputable def polyArea (flag : Bool) (small radius threshold eps10 : ℝ) (l : List (ℝ × ℝ)) : Option ℝ :=
  if flag = false then some (PolyArea.polyArea Real.sin Real.pi small radius l)
  else if crossesPole small (l.map Prod.fst) ∧ ¬isNearPole threshold (l.map Prod.snd) then none
  else if isNearPole threshold (l.map Prod.snd) then
    if 8 < l.length then none
    else if isNearPole threshold ((rotatePoly eps10 l).map Prod.snd) then none
    else some (PolyArea.polyArea Real.sin Real.pi small radius (rotatePoly eps10 l))
  else some (PolyArea.polyArea Real.sin Real.pi small radius l)

end Verif.PolarArea
