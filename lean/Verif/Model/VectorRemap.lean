import Mathlib.Algebra.Order.Field.Basic
/-
Model of the conservative interpolation of vectors in fregrid.

Source: /repo/src/fre-grid/conserve_interp.c `do_vector_conserve_interp` 917-1008; /repo/src/fre-grid/fregrid_util.c
`get_field_attribute` 1890-1912 (missing value 0 if there is none), `get_input_data` 2050-2055 and 2139-2144 (data stored with a halo
unless the method is first order).

Simplifications: numbers are an ordered field; one output tile (the loop over output tiles reads the input data, which the first loop has
rotated, and writes its own arrays only); one level, as the routine reads one level. Arrays are functions of flat indices.
-/
namespace Verif.VectorRemap

/-- One cell of the exchange grid, `interp[m]`. -/
structure XCell (K : Type) where
  tile : Nat
  i1 : Nat
  j1 : Nat
  i2 : Nat
  j2 : Nat
  area : K

/-- `rotate`, `cosrot`, `sinrot` of a grid. -/
structure Angles (K : Type) where
  rotate : Bool
  cos : Nat → K
  sin : Nat → K

variable {K : Type} [Field K] [LinearOrder K]

/-- Flag `rotate` (fregrid_util.c 257-263, 539-545): some sine is above `EPSLN10`; the list holds the sines of all cells. -/
def rotates (eps : K) (sines : List K) : Bool := sines.any (fun s => decide (eps < |s|))

/-- 927-940: the input data of one tile, both components. -/
def rotateIn (miss : K) (a : Angles K) (u v : Nat → K) (i : Nat) : K × K :=
  if a.rotate then
    if u i ≠ miss ∧ v i ≠ miss then (u i * a.cos i - v i * a.sin i, u i * a.sin i + v i * a.cos i) else (u i, v i)
  else (u i, v i)

/-- Sums of one output cell: both components and the area. -/
structure Sums (K : Type) where
  u : K
  v : K
  area : K

/-- 953-970: one cell of the exchange grid added to the sums of all output cells; `d` is the rotated input data. -/
def addCell (miss : K) (nx1 : Nat → Nat) (nx2 : Nat) (d : Nat → Nat → K × K) (s : Nat → Sums K) (c : XCell K) : Nat → Sums K :=
  let p := d c.tile (c.j1 * nx1 c.tile + c.i1)
  if p.1 ≠ miss ∧ p.2 ≠ miss then
    fun n => if n = c.j2 * nx2 + c.i2 then ⟨(s n).u + p.1 * c.area, (s n).v + p.2 * c.area, (s n).area + c.area⟩ else s n
  else s

/-- 947-992: the sums, then the division by the area of the output cell (`--target_grid`) or by the area found. -/
def average (miss : K) (target : Option (Nat → K)) (s : Nat → Sums K) (n : Nat) : K × K :=
  if 0 < (s n).area then
    match target with
    | some area => ((s n).u / area n, (s n).v / area n)
    | none => ((s n).u / (s n).area, (s n).v / (s n).area)
  else (miss, miss)

/-- 994-1004 -/
def rotateOut (miss : K) (a : Angles K) (p : K × K) (n : Nat) : K × K :=
  if a.rotate then
    if p.1 ≠ miss ∧ p.2 ≠ miss then (p.1 * a.cos n + p.2 * a.sin n, - p.1 * a.sin n + p.2 * a.cos n) else p
  else p

/-- `do_vector_conserve_interp`: `u`, `v` are the data of the tiles as stored. -/
def vectorInterp (miss : K) (nx1 : Nat → Nat) (ain : Nat → Angles K) (nx2 : Nat) (aout : Angles K) (target : Option (Nat → K)) (cells : List (XCell K))
    (u v : Nat → Nat → K) (n : Nat) : K × K :=
  let d := fun t i => rotateIn miss (ain t) (u t) (v t) i
  let s := cells.foldl (addCell miss nx1 nx2 d) (fun _ => ⟨0, 0, 0⟩)
  rotateOut miss aout (average miss target s n) n

/-- How a field of a tile, given for row `j` and column `i`, is stored: `get_input_data` 2139-2144 with `halo` 0 (first order) or 1 (second
order); what is around is `around`. -/
def stored (halo nx ny : Nat) (around : K) (f : Nat → Nat → K) (x : Nat) : K :=
  let w := nx + 2 * halo
  let j := x / w
  let i := x % w
  if halo ≤ j ∧ j < ny + halo ∧ halo ≤ i ∧ i < nx + halo then f (j - halo) (i - halo) else around

/-- Missing value of a variable, `get_field_attribute` 1899-1912. -/
def missingOf (att : Option K) (fill : Option K) : K :=
  match att with
  | some x => x
  | none => match fill with
    | some x => x
    | none => 0

end Verif.VectorRemap
