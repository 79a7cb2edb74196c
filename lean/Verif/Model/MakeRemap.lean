import Verif.Model.Conserve
import Verif.Model.RemapRuns
/-
make_remap_file: /repo/src/cubic_utils/make_remap_file.c 110-561 (main).

Simplifications: numbers are an ordered field; `fix_lon` with `poly_area`, `poly_ctrlon`, `poly_ctrlat` and `avgval_double` are functions of the four corner points
(parameters `Geo`; C25 to C28 have these routines); the grids are given with the corner points of the cells, that is every second point of the supergrid (272-280,
310-318); a size 0 counts as undefined (the remainders of 325 and 337 divide by it, as far as `&&` comes to it); arguments and provenance are left out.
-/
namespace Verif.MakeRemap
open Conserve RemapRuns

variable {K : Type}

/-- A tile: size of the supergrid, longitude and latitude of the corner `(i, j)`. -/
structure Grid (K : Type) where
  nx : Nat
  ny : Nat
  x : Nat → Nat → K
  y : Nat → Nat → K

/-- Corners of a cell in the order of the code. -/
structure Quad (K : Type) where
  p0 : K × K
  p1 : K × K
  p2 : K × K
  p3 : K × K
  deriving DecidableEq

/-- 385-392, 402-409, 445-452 -/
def quad (g : Grid K) (i j : Nat) : Quad K :=
  ⟨(g.x i j, g.y i j), (g.x (i + 1) j, g.y (i + 1) j), (g.x (i + 1) (j + 1), g.y (i + 1) (j + 1)), (g.x i (j + 1), g.y i (j + 1))⟩

/-- Geometry: mean longitude of a cell (393-394), area (410-411), moments (414-415). -/
structure Geo (K : Type) where
  avg : Quad K → K
  area : Quad K → K
  ctrlon : Quad K → K → K
  ctrlat : Quad K → K

/-- An exchange cell in the loops: cell of the coarse grid and cell of the fine grid. -/
structure Pos where
  i : Nat
  j : Nat
  fi : Nat
  fj : Nat
  deriving DecidableEq

/-- 384, 395-399 and 437-442: the loops over the coarse grid and, in each of its cells, over the fine grid. -/
def positions (ni nj r : Nat) : List Pos :=
  (List.range nj).flatMap fun j => (List.range ni).flatMap fun i =>
    (List.range r).flatMap fun j1 => (List.range r).map fun i1 => ⟨i, j, i * r + i1, j * r + j1⟩

section
variable [Field K] [LinearOrder K] (G : Geo K)

/-- 374-381, 412, 416-417: `a[j*ni_in+i] += v` for the exchange cells of the input cell `(i, j)`. -/
def accum (ps : List Pos) (v : Pos → K) (i j : Nat) : K :=
  (ps.filter fun p => decide (p.i = i ∧ p.j = j)).foldl (fun a p => a + v p) 0

/-- 382-434: the output grid is finer. -/
def fine (order2 : Bool) (n : Nat) (gin gout : Grid K) (r : Nat) : List (XCell K) :=
  let ps := positions (gin.nx / 2) (gin.ny / 2) r
  let area := fun p : Pos => G.area (quad gout p.fi p.fj)
  let lon := fun p : Pos => G.ctrlon (quad gout p.fi p.fj) (G.avg (quad gin p.i p.j))
  let lat := fun p : Pos => G.ctrlat (quad gout p.fi p.fj)
  ps.map fun p => ⟨n, p.i, p.j, p.fi, p.fj, area p,
    if order2 then lon p / area p - accum ps lon p.i p.j / accum ps area p.i p.j else 0,
    if order2 then lat p / area p - accum ps lat p.i p.j / accum ps area p.i p.j else 0⟩

/-- 435-465: the input grid is finer. The area is that of the output cell (445-454). -/
def coarse (n : Nat) (gout : Grid K) (r : Nat) : List (XCell K) :=
  (positions (gout.nx / 2) (gout.ny / 2) r).map fun p => ⟨n, p.fi, p.fj, p.i, p.j, G.area (quad gout p.i p.j), 0, 0⟩

/-- 330-335 and 342-347: the corners of `a` are corners of `b`. -/
def corners (eps : K) (a b : Grid K) (r : Nat) : Bool :=
  (List.range (a.ny / 2 + 1)).all fun j => (List.range (a.nx / 2 + 1)).all fun i =>
    !(decide (eps < |a.x i j - b.x (i * r) (j * r)|) || decide (eps < |a.y i j - b.y (i * r) (j * r)|))

/-- 325-350: which grid is finer (`true`: the output grid) and the ratio. -/
def ratio (eps : K) (gin gout : Grid K) : Except Err (Bool × Nat) :=
  if gin.nx = 0 ∨ gin.ny = 0 ∨ gout.nx = 0 ∨ gout.ny = 0 then .error .undefined
  else if gout.nx % gin.nx = 0 ∧ gout.ny % gin.ny = 0 then
    if gout.nx / gin.nx ≠ gout.ny / gin.ny then .error .refused
    else if corners eps gin gout (gout.nx / gin.nx) then .ok (true, gout.nx / gin.nx) else .error .refused
  else if gin.nx % gout.nx = 0 ∧ gin.ny % gout.ny = 0 then
    if gin.nx / gout.nx ≠ gin.ny / gout.ny then .error .refused
    else if corners eps gout gin (gin.nx / gout.nx) then .ok (false, gin.nx / gout.nx) else .error .refused
  else .error .refused

/-- 325-471: exchange cells of tile `n` (counted from 0). -/
def cellsOf (eps : K) (order2 : Bool) (n : Nat) (gin gout : Grid K) : Except Err (List (XCell K)) :=
  match ratio eps gin gout with
  | .error e => .error e
  | .ok (true, r) => .ok (fine G order2 n gin gout r)
  | .ok (false, r) => .ok (coarse G n gout r)

/-- What is kept from one tile to the next: sizes of the input tiles, size of the output tile before, and the lengths of the arrays, which come from the first tile
(266-270, 304-308, 356-373). -/
structure State where
  nxIn : Nat
  nyIn : Nat
  nxOut : Nat
  nyOut : Nat
  lenOut : Nat
  lenSuper : Nat
  lenCells : Nat

/-- 256-257, 294-295 -/
def odd (g : Grid K) : Bool := decide (g.nx % 2 ≠ 0) || decide (g.ny % 2 ≠ 0)

/-- 259: an input tile of another size than the one before. -/
def otherIn (s : Option State) (g : Grid K) : Bool :=
  match s with
  | none => false
  | some s => decide (g.nx ≠ s.nxIn ∨ g.ny ≠ s.nyIn)

/-- 297: an output tile of another size than the one before; not compared for the second tile. -/
def otherOut (n : Nat) (s : Option State) (g : Grid K) : Bool :=
  match s with
  | none => false
  | some s => decide (1 < n) && decide (g.nx ≠ s.nxOut ∨ g.ny ≠ s.nyOut)

/-- Lengths from the first tile. -/
def kept (s : Option State) (f : State → Nat) (v : Nat) : Nat :=
  match s with
  | none => v
  | some s => f s

/-- 254-471 for tile `n`; `s` is what the earlier tiles left, if there are any. The size of the output tile is compared for `n > 1` only (297). -/
def step (eps : K) (order2 : Bool) (n : Nat) (s : Option State) (gin gout : Grid K) : Except Err (State × List (XCell K)) :=
  if odd gin then .error .refused
  else if otherIn s gin then .error .refused
  else if odd gout then .error .refused
  else if otherOut n s gout then .error .refused
  else
    let lo := kept s State.lenOut ((gout.nx / 2 + 1) * (gout.ny / 2 + 1))
    let ls := kept s State.lenSuper ((gout.nx + 1) * (gout.ny + 1))
    if lo < (gout.nx / 2 + 1) * (gout.ny / 2 + 1) ∨ ls < (gout.nx + 1) * (gout.ny + 1) then .error .undefined
    else match cellsOf G eps order2 n gin gout with
      | .error e => .error e
      | .ok cs =>
        if kept s State.lenCells cs.length < cs.length then .error .undefined
        else .ok (⟨gin.nx, gin.ny, gout.nx, gout.ny, lo, ls, kept s State.lenCells cs.length⟩, cs)

/-- 227-529: the loop over the tiles. -/
def tiles (eps : K) (order2 : Bool) : Nat → Option State → List (Grid K × Grid K) → Except Err (List (List (XCell K)))
  | _, _, [] => .ok []
  | n, s, t :: ts =>
    match step G eps order2 n s t.1 t.2 with
    | .error e => .error e
    | .ok (s', cs) =>
      match tiles eps order2 (n + 1) (some s') ts with
      | .error e => .error e
      | .ok rest => .ok (cs :: rest)

/-- 481-487, 506-526: the record of an exchange cell in the file, with indices from 1. -/
def record (c : XCell K) : RemapRec K :=
  ⟨(c.t1 : Int) + 1, ((c.i1 : Int) + 1, (c.j1 : Int) + 1), ((c.i2 : Int) + 1, (c.j2 : Int) + 1), c.area, (c.di, c.dj)⟩

/-- 200-208 and 227-529: both mosaics have the same number of tiles; second order needs six tiles. -/
def main (eps : K) (order2 : Bool) (gin gout : List (Grid K)) : Except Err (List (List (RemapRec K))) :=
  if gin.length ≠ gout.length then .error .refused
  else if gin.length ≠ 6 ∧ order2 then .error .refused
  else match tiles G eps order2 0 none (gin.zip gout) with
    | .error e => .error e
    | .ok l => .ok (l.map fun cs => cs.map record)

end

/-- 214-224, 475-478: names of the files. The base is made as in fregrid (`stem`); no check of the length before `sprintf` into `my_remap_file[STRING]`. -/
def fileNames (ntiles : Nat) (name : Name) : Except Err (List Name) :=
  match stem name with
  | .error e => .error e
  | .ok s =>
    let l := (List.range ntiles).map fun n =>
      if 1 < ntiles then s ++ ".tile".toList ++ (toString (n + 1)).toList ++ ".nc".toList else s ++ ".nc".toList
    if l.any fun f => STRING < f.length + 1 then .error .undefined else .ok l

end Verif.MakeRemap
