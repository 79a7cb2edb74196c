import Mathlib.Analysis.SpecialFunctions.Pow.Real
/-
Notions used in the statements about plevel.
-/
namespace Verif.Spec.Plev

/-- Levels 1..`n` of a column have positive pressures that increase with the level number (downwards). -/
def Column (p : Nat → ℝ) (n : Nat) : Prop :=
  0 < p 1 ∧ ∀ k, 1 ≤ k → k < n → p k < p (k + 1)

/-- Half levels 1..`n` of a column: the top pressure may be 0. -/
def HalfColumn (p : Nat → ℝ) (n : Nat) : Prop :=
  0 ≤ p 1 ∧ ∀ k, 1 ≤ k → k < n → p k < p (k + 1)

/-- `v` lies between `a` and `b` in either order. -/
def Between (a b v : ℝ) : Prop := min a b ≤ v ∧ v ≤ max a b

/-- Virtual temperature of air of temperature `t` and specific humidity `q`: the temperature of dry air of the
same pressure and density, where `rd` and `rv` are the gas constants of dry air and vapour. -/
noncomputable def virtualTemp (rd rv t q : ℝ) : ℝ := t * ((1 - q) * rd + q * rv) / rd

/-- Relative humidity of air with specific humidity `q` at temperature `t` and pressure `p`: its mixing ratio
divided by that of saturated air, where `es` is the saturation vapour pressure and `eps` the quotient of the
gas constants of dry air and vapour. -/
noncomputable def relHum (eps : ℝ) (es : ℝ → ℝ) (q t p : ℝ) : ℝ :=
  (q / (1 - q)) / (eps * es t / (p - es t))

/-- Temperature at pressure `p` in an atmosphere of constant lapse rate: `t0` and `p0` are temperature and
pressure at height 0 and `kap` is gas constant times lapse rate over gravity. -/
noncomputable def lapseTemp (t0 p0 kap p : ℝ) : ℝ := t0 * (p / p0) ^ kap

/-- Height at pressure `p` in that atmosphere with lapse rate `lapse`. -/
noncomputable def lapseHeight (t0 p0 kap lapse p : ℝ) : ℝ := (t0 - lapseTemp t0 p0 kap p) / lapse

end Verif.Spec.Plev
