import Mathlib.Data.List.Basic
/-
Model of the halo that make_hgrid writes around the tiles of a cubed sphere (`--out_halo 1`).

Source: /repo/src/make-hgrid/make_hgrid.c `fill_cubic_grid_halo` 453-503 and its calls 1279-1300.

Simplifications: arrays are functions of flat indices; reads outside of the arrays are not an error here (the theorems say what is read).
`all1`, `all2` are `data1_all`, `data2_all`: the values of the six tiles, one tile after the other.
-/
namespace Verif.HgridHalo

variable {F : Type}

/-- `a[k] = v` -/
def put (a : Nat → F) (k : Nat) (v : F) : Nat → F := fun m => if m = k then v else a m

/-- 464: all values are missing at first. -/
def init (miss : F) : Nat → F := fun _ => miss

/-- 467-469: the values of the tile itself. -/
def own (nxp nyp nxph tile : Nat) (all1 : Nat → F) (a : Nat → F) : Nat → F :=
  (List.range nyp).foldl (fun a j => (List.range nxp).foldl (fun a i =>
    put a ((j + 1) * nxph + (i + 1)) (all1 (tile * nxp * nyp + j * nxp + i))) a) a

/-- 473-476, 490-493: the four neighbours, west, east, south, north. -/
def neighbours (tile : Nat) : Nat × Nat × Nat × Nat :=
  if tile % 2 = 1 then ((tile + 6 - 1) % 6, (tile + 6 + 2) % 6, (tile + 6 - 2) % 6, (tile + 6 + 1) % 6)
  else ((tile + 6 - 2) % 6, (tile + 6 + 1) % 6, (tile + 6 - 1) % 6, (tile + 6 + 2) % 6)

/-- 478, 495: value west of row `j` (from 1). -/
def west (nx ny ioff joff tile : Nat) (all1 all2 : Nat → F) (j : Nat) : F :=
  let nxp := nx + ioff
  let nyp := ny + joff
  let lw := (neighbours tile).1
  if tile % 2 = 1 then all1 (lw * nxp * nyp + (j - 1) * nxp + nx - 1)
  else all2 (lw * nxp * nyp + (ny - 1) * nxp + nyp - j)

/-- 479, 496 -/
def east (nx ny ioff joff tile : Nat) (all1 all2 : Nat → F) (j : Nat) : F :=
  let nxp := nx + ioff
  let nyp := ny + joff
  let le := (neighbours tile).2.1
  if tile % 2 = 1 then all2 (le * nxp * nyp + ioff * nxp + nyp - j)
  else all1 (le * nxp * nyp + (j - 1) * nxp + ioff)

/-- 483, 500 -/
def south (nx ny ioff joff tile : Nat) (all1 all2 : Nat → F) (i : Nat) : F :=
  let nxp := nx + ioff
  let nyp := ny + joff
  let ls := (neighbours tile).2.2.1
  if tile % 2 = 1 then all2 (ls * nxp * nyp + (nxp - i) * nyp + (nx - 1))
  else all1 (ls * nxp * nyp + (ny - 1) * nxp + i - 1)

/-- 484, 501 -/
def north (nx ny ioff joff tile : Nat) (all1 all2 : Nat → F) (i : Nat) : F :=
  let nxp := nx + ioff
  let nyp := ny + joff
  let ln := (neighbours tile).2.2.2
  if tile % 2 = 1 then all1 (ln * nxp * nyp + joff * nxp + i - 1)
  else all2 (ln * nxp * nyp + (nxp - i) * nyp + joff)

/-- `fill_cubic_grid_halo` -/
def fillHalo (miss : F) (nx ny halo ioff joff tile : Nat) (all1 all2 : Nat → F) : Nat → F :=
  let nxp := nx + ioff
  let nyp := ny + joff
  let nxph := nx + ioff + 2 * halo
  let a := own nxp nyp nxph tile all1 (init miss)
  let a := (List.range nyp).foldl (fun a j =>
    put (put a ((j + 1) * nxph) (west nx ny ioff joff tile all1 all2 (j + 1))) ((j + 1) * nxph + nxp + 1)
      (east nx ny ioff joff tile all1 all2 (j + 1))) a
  (List.range nxp).foldl (fun a i =>
    put (put a (i + 1) (south nx ny ioff joff tile all1 all2 (i + 1))) ((nyp + 1) * nxph + (i + 1))
      (north nx ny ioff joff tile all1 all2 (i + 1))) a

/-- The calls 1279-1300 with a halo of 1: points and angles, `dx`, `dy`, `area`. -/
def outPoints (miss : F) (n tile : Nat) (v : Nat → F) : Nat → F := fillHalo miss n n 1 1 1 tile v v
def outDx (miss : F) (n tile : Nat) (dx dy : Nat → F) : Nat → F := fillHalo miss n n 1 0 1 tile dx dy
def outDy (miss : F) (n tile : Nat) (dx dy : Nat → F) : Nat → F := fillHalo miss n n 1 1 0 tile dy dx
def outArea (miss : F) (n tile : Nat) (v : Nat → F) : Nat → F := fillHalo miss n n 1 0 0 tile v v

end Verif.HgridHalo
