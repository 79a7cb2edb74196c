/-
Specification vocabulary for distributed fields.
-/
namespace Verif.Spec

/-- The local array `ldata`, declared as `sizex x sizey` with `nz` levels, holds the values of the
field `F` on the block `isc..iec x jsc..jec`, enlarged by `sx`, `sy` on the upper side (0 for cell
data, 1 for corner data). Either it is exactly that block, or the block surrounded by a halo. -/
def HoldsBlock {α : Type} (isc iec jsc jec xhalo yhalo sx sy : Int) (nz : Nat)
    (sizex sizey : Int) (ldata : Int → α) (F : Int → Int → Int → α) : Prop :=
  (sizex = iec - isc + 1 + sx ∧ sizey = jec - jsc + 1 + sy ∧
    ∀ i j k : Int, isc ≤ i → i ≤ iec + sx → jsc ≤ j → j ≤ jec + sy → 0 ≤ k → k < nz →
      ldata (k * sizex * sizey + (j - jsc) * sizex + (i - isc)) = F i j k) ∨
  (sizex = iec - isc + 1 + sx + 2 * xhalo ∧ sizey = jec - jsc + 1 + sy + 2 * yhalo ∧
    ∀ i j k : Int, isc ≤ i → i ≤ iec + sx → jsc ≤ j → j ≤ jec + sy → 0 ≤ k → k < nz →
      ldata (k * sizex * sizey + (j - (jsc - yhalo)) * sizex + (i - (isc - xhalo))) = F i j k)

end Verif.Spec
