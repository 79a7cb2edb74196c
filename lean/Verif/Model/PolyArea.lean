import Verif.Model.Clip
/-
Areas of polygons on the sphere.

Source: /repo/lib/libfrencutils/mosaic_util.c `box_area` 259-269, `poly_area_main` 417-459, `poly_area` 474-515
(with `rotate_poly_flag` 0, the default), `poly_area_no_adjust` 608-634.

Simplifications: numbers are an ordered field and sine, cosine, `M_PI`, `SMALL_VALUE` and `RADIUS` are
parameters; the arrays are a list of vertices (longitude, latitude). The warning about large values is left out.
-/
namespace Verif.PolyArea
open Verif.Clip (Pt)

variable {K : Type} [Field K] [LinearOrder K]

/-- The difference of longitudes brought into one turn (427-431; 263-264). -/
def wrap (pi dx : K) : K :=
  let d := if dx > pi then dx - 2 * pi else dx
  if d < -pi then d + 2 * pi else d

/-- What one side adds to `area` (422-450): `p` is vertex `i`, `q` vertex `ip`. -/
def side (sin : K → K) (pi small : K) (p q : Pt K) : K :=
  let dx := wrap pi (q.1 - p.1)
  if abs (dx + pi) < small ∨ abs (dx - pi) < small then pi
  else if abs (q.2 - p.2) < small then -(dx * sin (1 / 2 * (q.2 + p.2)))
  else
    let dy := 1 / 2 * (q.2 - p.2);
    -(dx * sin (1 / 2 * (q.2 + p.2)) * (sin dy / dy))

/-- The sides in the order of the loop: vertex `i` and vertex `(i+1) % n`. -/
def sides (l : List (Pt K)) : List (Pt K × Pt K) := l.zip (l.tail ++ l.head?.toList)

/-- `poly_area_main` 417-459. -/
def polyArea (sin : K → K) (pi small radius : K) (l : List (Pt K)) : K :=
  let area := (sides l).foldl (fun acc s => acc + side sin pi small s.1 s.2) 0
  if area < 0 then -area * radius * radius else area * radius * radius

/-- What one side adds in `poly_area_no_adjust` (615-626). -/
def sideNA (sin cos : K → K) (small : K) (p q : Pt K) : K :=
  let dx := q.1 - p.1
  if dx = 0 then 0
  else if abs (q.2 - p.2) < small then -(dx * sin (1 / 2 * (q.2 + p.2)))
  else dx * (cos q.2 - cos p.2) / (q.2 - p.2)

/-- `poly_area_no_adjust` 608-634: both branches at the end return the signed value. -/
def polyAreaNA (sin cos : K → K) (small radius : K) (l : List (Pt K)) : K :=
  (sides l).foldl (fun acc s => acc + sideNA sin cos small s.1 s.2) 0 * radius * radius

/-- `box_area` 259-269. -/
def boxArea (sin : K → K) (pi radius : K) (ll ur : Pt K) : K :=
  wrap pi (ur.1 - ll.1) * (sin ur.2 - sin ll.2) * radius * radius

end Verif.PolyArea
