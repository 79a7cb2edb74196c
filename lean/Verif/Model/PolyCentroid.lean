import Verif.Model.PolyArea
/-
First moments of polygons on the sphere, used for second-order remapping.

Source: /repo/lib/libfrencutils/create_xgrid.c `poly_ctrlat` 2112-2137, `poly_ctrlon` 2186-2233, `box_ctrlat`
2239-2248, `box_ctrlon` 2254-2299. What fregrid does with the moments is in `Verif.Model.Conserve`
(`cellCentroid`, `recentre`).

Simplifications: as in `Verif.Model.PolyArea`; the warning about large values is left out. `poly_ctrlat2` is not
called by any program and is not modelled.
-/
namespace Verif.PolyCentroid
open Verif.Clip (Pt)
open Verif.PolyArea (sides wrap)

variable {K : Type} [Field K] [LinearOrder K]

/-- The difference of longitudes in `poly_ctrlat` (2127-2128): unlike elsewhere `-pi` becomes `pi`. -/
def wrapLe (pi dx : K) : K :=
  let d := if dx > pi then dx - 2 * pi else dx
  if d ≤ -pi then d + 2 * pi else d

/-- What one side takes off `ctrlat` (2116-2134), with the sign: `p` is vertex `i`, `q` vertex `ip`. -/
def latSide (sin cos : K → K) (pi small : K) (p q : Pt K) : K :=
  let dx := q.1 - p.1
  let lat1 := q.2
  let lat2 := p.2
  let hdy := (lat2 - lat1) * (1 / 2)
  let avg := (lat1 + lat2) * (1 / 2)
  if dx = 0 then 0
  else
    let dx := wrapLe pi dx
    if abs hdy < small then -(dx * (2 * cos avg + lat2 * sin avg - cos lat1))
    else -(dx * (sin hdy / hdy * (2 * cos avg + lat2 * sin avg) - cos lat1))

/-- `poly_ctrlat` 2112-2137. -/
def polyCtrlat (sin cos : K → K) (pi small radius : K) (l : List (Pt K)) : K :=
  (sides l).foldl (fun acc s => acc + latSide sin cos pi small s.1 s.2) 0 * radius * radius

/-- `f1`, `f2` (2203-2204, 2272-2273). -/
def ff (sin cos : K → K) (lat : K) : K := 1 / 2 * (cos lat * sin lat + lat)

/-- What one side takes off `ctrlon` (2203-2229; 2271-2296), with the sign. `clon` is the middle of the source
cell. -/
def lonSide (sin cos : K → K) (pi clon : K) (p q : Pt K) : K :=
  let dphi := wrap pi (q.1 - p.1)
  let f1 := ff sin cos q.2
  let f2 := ff sin cos p.2
  let dphi1 := wrap pi (q.1 - clon)
  let dphi2 := wrap pi (p.1 - clon)
  if abs (dphi2 - dphi1) < pi then -(dphi * (dphi1 * f1 + dphi2 * f2) / 2)
  else
    let fac := if dphi1 > 0 then pi else -pi
    let fint := f1 + (f2 - f1) * (fac - dphi1) / abs dphi;
    -(1 / 2 * dphi1 * (dphi1 - fac) * f1 - 1 / 2 * dphi2 * (dphi2 + fac) * f2 + 1 / 2 * fac * (dphi1 + dphi2) * fint)

/-- `poly_ctrlon` 2186-2233; sides with `dphi == 0` are passed over (2201). -/
def polyCtrlon (sin cos : K → K) (pi radius clon : K) (l : List (Pt K)) : K :=
  (sides l).foldl (fun acc s => acc + (if s.2.1 - s.1.1 = 0 then 0 else lonSide sin cos pi clon s.1 s.2)) 0
    * radius * radius

/-- `box_ctrlat` 2239-2248. -/
def boxCtrlat (sin cos : K → K) (pi radius : K) (ll ur : Pt K) : K :=
  wrap pi (ur.1 - ll.1) * (cos ur.2 + ur.2 * sin ur.2 - (cos ll.2 + ll.2 * sin ll.2)) * radius * radius

/-- `box_ctrlon` 2254-2299: the southern side from west to east, the northern side back. -/
def boxCtrlon (sin cos : K → K) (pi radius clon : K) (ll ur : Pt K) : K :=
  (lonSide sin cos pi clon ll (ur.1, ll.2) + lonSide sin cos pi clon ur (ll.1, ur.2)) * radius * radius

end Verif.PolyCentroid
