import Verif.Model.Plevel
import Mathlib.Analysis.SpecialFunctions.Log.Base
/-
Saturation vapour pressure of plevel: /repo/src/plevel/moisture_convert.F90 `compute_es` 361-411, `sat_vapor_pres_init` 415-467, `lookup_es_0d` 301-319 (`lookup_es_3d` 323-347 does the same for
each point), `e_to_sphum` 169-176. The conversions 102-155 and 191-282 are in Model/Plevel.lean.

Simplifications: `real` is a real number, so that logarithms and powers are exact; the tables are functions of the position from 1 to `nsize`.
-/
noncomputable section
namespace Verif.VaporTable
open Real

/-- plev_constants.F90 `TFREEZE`; 365-368 -/
def tbasi : ℝ := 273.16
def tbasw : ℝ := tbasi + 100
def esbasw : ℝ := 101324.60
def esbasi : ℝ := 610.71

def log10 (x : ℝ) : ℝ := logb 10 x

/-- 378-380: over ice -/
def ice (t : ℝ) : ℝ :=
  (10 : ℝ) ^ (-9.09718 * (tbasi / t - 1) - 3.56654 * log10 (tbasi / t) + 0.876793 * (1 - t / tbasi) + log10 esbasi)

/-- 390-394: over water -/
def water (t : ℝ) : ℝ :=
  (10 : ℝ) ^ (-7.90298 * (tbasw / t - 1) + 5.02808 * log10 (tbasw / t) - 1.3816e-07 * ((10 : ℝ) ^ ((1 - t / tbasw) * 11.344) - 1)
    + 8.1328e-03 * ((10 : ℝ) ^ ((tbasw / t - 1) * (-3.49149)) - 1) + log10 esbasw)

/-- 361-411 for one temperature -/
def computeEs (t : ℝ) : ℝ :=
  let esice := if t < tbasi then ice t else 0
  let esh2o := if -20 + tbasi < t then water t else 0
  if t ≤ -20 + tbasi then esice
  else if tbasi ≤ t then esh2o
  else 0.05 * ((tbasi - t) * esice + (t - tbasi + 20) * esh2o)

/-- 83-87, 428-439 -/
def nsize : Int := (100 - -160) * 10 + 1
def nlim : Int := nsize - 1
def tmin : ℝ := -160 + tbasi
def dtinv : ℝ := 10
def dtres : ℝ := 1 / dtinv
def teps : ℝ := 1 / 20

/-- 446-453 -/
def tem (i : Int) : ℝ := tmin + dtres * ((i - 1 : Int) : ℝ)
def table (i : Int) : ℝ := computeEs (tem i)
def dtable (i : Int) : ℝ := (computeEs (tem i + 0.01) - computeEs (tem i - 0.01)) * (1 / (2 * 0.01))

/-- 458-463 -/
def d2table (i : Int) : ℝ :=
  if i = 1 then 0.50 * dtinv * (dtable 2 - dtable 1)
  else if i = nsize then 0.50 * dtinv * (dtable nsize - dtable (nsize - 1))
  else 0.25 * dtinv * (dtable (i + 1) - dtable (i - 1))

/-- `int`: towards zero -/
def truncate (x : ℝ) : Int := if 0 ≤ x then ⌊x⌋ else ⌈x⌉

inductive Found where
  | value (es : ℝ)
  | stop
  | outside

/-- 301-319: the tables are read before the position is tested. -/
def lookup (temp : ℝ) : Found :=
  let tmp := temp - tmin
  let ind := truncate (dtinv * (tmp + teps))
  let del := tmp - dtres * (ind : ℝ)
  if ind + 1 < 1 ∨ nsize < ind + 1 then .outside
  else if ind < 0 ∨ nlim < ind then .stop
  else .value (table (ind + 1) + del * (dtable (ind + 1) + del * d2table (ind + 1)))

/-- `e_to_sphum` 169-176; `one_eps` 78 -/
def eToSphum (e pres : ℝ) : ℝ := (Plevel.rdgas / Plevel.rvgas) * e / (pres - (1 - Plevel.rdgas / Plevel.rvgas) * e)

end Verif.VaporTable
