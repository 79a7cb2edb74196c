import Verif.Model.Hydrog
/-
Model of `find_crossing_rivers` (rmv_parallel_rivers.F90, l.1361-1502) and of the correction of crossing rivers (l.1076-1129).
Positions as in `Model/Hydrog`.
-/
namespace Verif.Hydrog

/-- The values of a loop -/
def span (lo hi : Int) : List Int := (List.range (hi + 1 - lo).toNat).map fun (k : Nat) => lo + k

/-- One comparison of two neighbours, with the two pairs of values that count as crossing -/
def pair (toc : Pos → Int) (p q : Pos) (v v' : Int × Int) : List (Pos × Pos) :=
  if (toc p = v.1 ∧ toc q = v.2) ∨ (toc p = v'.1 ∧ toc q = v'.2) then [(p, q)] else []

/-- l.1387-1393 and l.1408-1414 -/
def above (toc : Pos → Int) (p : Pos) : List (Pos × Pos) := pair toc p ⟨p.x, p.y + 1, p.n⟩ (128, 2) (32, 8)
/-- l.1394-1400 and l.1419-1425 -/
def right (toc : Pos → Int) (p : Pos) : List (Pos × Pos) := pair toc p ⟨p.x + 1, p.y, p.n⟩ (2, 8) (128, 32)

/-- The comparisons across the edges of a tile, l.1430-1498 -/
def edges (g : Grid) (toc : Pos → Int) (n : Int) : List (Pos × Pos) :=
  if n % 2 = 0 then
    ((span 0 (g.nx + 1)).flatMap fun x =>
      pair toc ⟨x, 0, n⟩ ⟨x, 1, n⟩ (2, 2) (128, 8) ++ pair toc ⟨x, g.ny, n⟩ ⟨x, g.ny + 1, n⟩ (128, 2) (32, 8)) ++
    (span 0 (g.ny + 1)).flatMap fun y =>
      pair toc ⟨0, y, n⟩ ⟨1, y, n⟩ (2, 8) (128, 32) ++ pair toc ⟨g.nx, y, n⟩ ⟨g.nx + 1, y, n⟩ (2, 2) (128, 8)
  else
    ((span 0 (g.nx + 1)).flatMap fun x =>
      pair toc ⟨x, 0, n⟩ ⟨x, 1, n⟩ (128, 2) (32, 8) ++ pair toc ⟨x, g.ny, n⟩ ⟨x, g.ny + 1, n⟩ (128, 8) (32, 32)) ++
    (span 0 (g.ny + 1)).flatMap fun y =>
      pair toc ⟨0, y, n⟩ ⟨1, y, n⟩ (128, 8) (32, 32) ++ pair toc ⟨g.nx, y, n⟩ ⟨g.nx + 1, y, n⟩ (2, 8) (128, 32)

/-- `find_crossing_rivers`, l.1361-1502 -/
def crossings (g : Grid) (toc : Pos → Int) : List (Pos × Pos) :=
  if g.nt = 1 then
    (span 1 g.nt).flatMap fun n => (span 0 g.ny).flatMap fun y => (span 0 g.nx).flatMap fun x =>
      above toc ⟨x, y, n⟩ ++ right toc ⟨x, y, n⟩
  else
    ((span 1 g.nt).flatMap fun n =>
      ((span 1 (g.ny - 1)).flatMap fun y => (span 1 g.nx).flatMap fun x => above toc ⟨x, y, n⟩) ++
      ((span 1 g.ny).flatMap fun y => (span 1 (g.nx - 1)).flatMap fun x => right toc ⟨x, y, n⟩)) ++
    (span 1 g.nt).flatMap (edges g toc)

/-- The value of `out_flow` for a step from `p` to `t`, l.1116-1124 -/
def dirTo (p t : Pos) : Option Int := (dirs.find? fun e => p.move e.1 = t).map (·.2)

/-- `tocell(i1,j1,n1)= out_flow(ii,jj)`, if there is such a step, l.1112-1126 -/
def lead (toc : Pos → Int) (p t : Pos) : Pos → Int :=
  match dirTo p t with
  | some d => Function.update toc p d
  | none => toc

variable {R : Type} [LinearOrder R]

/-- The correction of one crossing, l.1085-1128: the river with the smaller area beyond the crossing is led to the cell to which the
other one flows. Values of `tocell` that are not a step leave `sba` as it was: this is no crossing, and nothing is done here. -/
def fixOne (sub : Pos → R) (toc : Pos → Int) (pq : Pos × Pos) : Pos → Int :=
  match offset (toc pq.1), offset (toc pq.2) with
  | some e, some f =>
    if sub (pq.1.move e) < sub (pq.2.move f) then lead toc pq.1 (pq.2.move f)
    else if sub (pq.2.move f) < sub (pq.1.move e) then lead toc pq.2 (pq.1.move e)
    else toc
  | _, _ => toc

/-- The correction of all crossings, l.1076-1129 -/
def fixCrossings (g : Grid) (sub : Pos → R) (toc : Pos → Int) : Pos → Int := (crossings g toc).foldl (fixOne sub) toc

end Verif.Hydrog
