/-
Model of the place of `dy` of all tiles, with nests, between its computation and the file.

Source: /repo/src/make-hgrid/create_gnomonic_cubic_grid.c offsets 301-325 and loop 594-613;
/repo/src/make-hgrid/make_hgrid.c 1175-1178, 1273, 1323-1328.

Simplifications: `sz n` is the size `(nx, ny)` of tile `n` of the supergrid, the six tiles of the cube first; the value
computed for row `j` and column `i` of tile `n` is a parameter; an element of the array which is not set is `none`.
-/
namespace Verif.NestLength

/-- `tile_offset_supergrid_m[n]` -/
def offsetM (sz : Nat → Nat × Nat) : Nat → Nat
  | 0 => 0
  | n + 1 => offsetM sz n + (sz n).1 * ((sz n).2 + 1)

/-- `pos_e` for tile `n` -/
def posE (sz : Nat → Nat × Nat) : Nat → Nat
  | 0 => 0
  | n + 1 => posE sz n + ((sz n).1 + 1) * (sz n).2

/-- The array `dy` after the loop over the first tiles. -/
def store {L : Type} (sz : Nat → Nat × Nat) (v : Nat → Nat → Nat → L) : Nat → Nat → Option L
  | 0, _ => none
  | n + 1, k =>
    let nxp := (sz n).1 + 1
    if offsetM sz n ≤ k ∧ k < offsetM sz n + nxp * (sz n).2 then
      some (v n ((k - offsetM sz n) / nxp) ((k - offsetM sz n) % nxp))
    else store sz v n k

/-- What the file of tile `n` gets in row `j` and column `i`. -/
def file {L : Type} (sz : Nat → Nat × Nat) (v : Nat → Nat → Nat → L) (ntiles n j i : Nat) : Option L :=
  store sz v ntiles (posE sz n + j * ((sz n).1 + 1) + i)

end Verif.NestLength
