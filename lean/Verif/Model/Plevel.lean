import Mathlib.Analysis.SpecialFunctions.Log.Basic
import Mathlib.Analysis.SpecialFunctions.Pow.Real
/-
Model of the interpolation of one atmospheric column to pressure levels (plevel).

Source: /repo/src/plevel/pressure_interp.F90 `pres_interp` 120-140, `pres_interp_init` 144-262,
`temp_extrap` 266-290, `q_extrap` 294-317; /repo/src/plevel/moisture_convert.F90 102-295;
/repo/src/plevel/run_pressure_interp.F90 `interp_field_setup` 813-971, `interp_field` 975-1018, `mask_data`
1022-1029, `set_up_input_mask` 1467-1494, `compute_pres_full` 1662-1685, `compute_height` 1689-1728;
/repo/src/plevel/plev_constants.F90.

Simplifications: numbers are real numbers instead of doubles, so `log`, `exp` and powers are exact;
horizontal points are independent once `kbot` is known, so everything but `set_up_input_mask` is modelled for
one column; levels are numbered from 1 as in the source and a column is a function on level numbers together
with its number of levels; reading a level number outside the array is the outcome `none`.  A column with a
level of pressure zero or below (only half levels can have one) also has the outcome `none`, where the program
goes on with the logarithm minus infinity.  The saturation vapour pressure is an arbitrary function of the
temperature (the table of moisture_convert.F90 301-467 is in Model/VaporTable.lean).  `wind_interp` is never called.
-/
namespace Verif.Plevel

open Real

/-! ### Constants (plev_constants.F90; run_pressure_interp.F90 267-274; pressure_interp.F90 275) -/

noncomputable def grav : ℝ := 9.80
noncomputable def rdgas : ℝ := 287.04
noncomputable def rvgas : ℝ := 461.50
/-- `tlapse` and `rlapse`. -/
noncomputable def lapse : ℝ := 6.5e-3
noncomputable def tref : ℝ := 288
noncomputable def pref : ℝ := 101325
/-- `d608` and `virtc`. -/
noncomputable def virtc : ℝ := (rvgas - rdgas) / rdgas
noncomputable def gorg : ℝ := grav / (rdgas * lapse)
noncomputable def mrgog : ℝ := -1 / gorg
noncomputable def rgog : ℝ := rdgas * lapse / grav

/-! ### Pressures of the model levels -/

/-- Half level pressures, run_pressure_interp.F90 833-835. -/
noncomputable def halfPressure (pk bk : Nat → ℝ) (ps : ℝ) (k : Nat) : ℝ := pk k + bk k * ps

/-- `lph` of `compute_pres_full`: pressure times its logarithm, 0 for a top pressure that is not positive. -/
noncomputable def plogp (ph : Nat → ℝ) (k : Nat) : ℝ :=
  if k = 1 then (if 0 < ph 1 then ph 1 * log (ph 1) else 0) else ph k * log (ph k)

/-- `compute_pres_full`: pressure of full level `k`, between the half levels `k` and `k+1`. -/
noncomputable def fullPressure (ph : Nat → ℝ) (k : Nat) : ℝ :=
  exp ((plogp ph (k + 1) - plogp ph k) / (ph (k + 1) - ph k) - 1)

/-! ### Lowest valid level (set_up_input_mask) -/

/-- Loop over `k = nlev, ..., 1` of `set_up_input_mask`: `miss c k` says that column `c` (of the columns below
`ncol`) has the missing value at level `k`. -/
def kbotLoop (miss : Nat → Nat → Bool) (ncol : Nat) : Nat → (Nat → Nat) → Nat → Nat
  | 0, kbot => kbot
  | k + 1, kbot =>
    if (List.range ncol).any (fun c => miss c (k + 1)) then
      kbotLoop miss ncol k (fun c => if miss c (k + 1) then k else kbot c)
    else kbot

/-- `set_up_input_mask` with a missing value attribute present. -/
def kbotOf (miss : Nat → Nat → Bool) (ncol nlev : Nat) : Nat → Nat :=
  kbotLoop miss ncol nlev (fun _ => nlev)

/-! ### pres_interp_init: position of an output level -/

/-- What `pres_interp_type` holds for one column and one output level. -/
structure Slot where
  index : Nat
  factr : ℝ
  mask : Bool

/-- First of the `n` levels from `k` on with a logarithm not below that of the output level, 194-200. -/
noncomputable def search (lo : ℝ) (lp : Nat → ℝ) : Nat → Nat → Option Nat
  | 0, _ => none
  | n + 1, k => if lo ≤ lp k then some k else search lo lp n (k + 1)

/-- Some of the levels 1..`kx` has no positive pressure. -/
def HasNonPos (p : Nat → ℝ) (kx : Nat) : Prop := ∃ k, 1 ≤ k ∧ k ≤ kx ∧ p k ≤ 0

open Classical in
/-- Position of the output pressure `pout` in a column with `kx` levels of pressures `p`, 187-217. -/
noncomputable def slot (p : Nat → ℝ) (kx kbot : Nat) (pout : ℝ) : Option Slot :=
  if HasNonPos p kx ∨ pout ≤ 0 then none
  else if kx < kbot then none
  else
    let lo := log pout
    let lp := fun k => log (p k)
    let found := search lo lp (kbot - 1) 2
    let k := found.getD kbot
    if k < 2 then none
    else some
      { index := k
        factr := max (-0.5) (min 1.5 ((lo - lp k) / (lp (k - 1) - lp k)))
        mask := found.isNone }

/-- `pres_interp`, 132-134. -/
noncomputable def interpAt (s : Slot) (d : Nat → ℝ) : ℝ :=
  d s.index + s.factr * (d (s.index - 1) - d s.index)

/-- `mask_data`: with `mask_extrap` a value below the lowest level is replaced by the missing value. -/
noncomputable def maskData (maskExtrap : Bool) (mval : ℝ) (s : Slot) (v : ℝ) : ℝ :=
  if maskExtrap && s.mask then mval else v

/-- `interp_field` for a field on full levels: interpolate, then mask if the field has a missing value. -/
noncomputable def fieldOut (maskExtrap : Bool) (mval : Option ℝ) (p : Nat → ℝ) (kx kbot : Nat) (pout : ℝ)
    (d : Nat → ℝ) : Option ℝ :=
  (slot p kx kbot pout).map fun s =>
    match mval with
    | some m => maskData maskExtrap m s (interpAt s d)
    | none => interpAt s d

/-- `interp_field` for a field on the `nlev + 1` half levels: `pres_interp_init` is called with the `kbot` of
the full levels (run_pressure_interp.F90 906). -/
noncomputable def halfFieldOut (maskExtrap : Bool) (mval : Option ℝ) (ph : Nat → ℝ) (nlev kbot : Nat)
    (pout : ℝ) (d : Nat → ℝ) : Option ℝ :=
  fieldOut maskExtrap mval ph (nlev + 1) kbot pout d

/-! ### Temperature and humidity -/

/-- `temp_extrap`: value at a level below the lowest one, 282-284. -/
noncomputable def tempExtrap (s : Slot) (tin lp : Nat → ℝ) (lo : ℝ) : ℝ :=
  let k := s.index - 1
  let rglp21 := 0.5 * (rdgas / grav) * (lo - lp k)
  tin k * (1 / lapse + rglp21) / (1 / lapse - rglp21)

/-- Temperature at the output level, 221-225. -/
noncomputable def tempOut (useExtrap : Bool) (s : Slot) (tin lp : Nat → ℝ) (lo : ℝ) : ℝ :=
  if useExtrap && s.mask then tempExtrap s tin lp lo else interpAt s tin

/-- `sphum_to_mixrat`. -/
noncomputable def sphumToMixrat (q : ℝ) : ℝ := q / (1 - q)
/-- `mixrat_to_sphum`. -/
noncomputable def mixratToSphum (r : ℝ) : ℝ := r / (1 + r)
/-- `e_to_mixrat`. -/
noncomputable def eToMixrat (e pres : ℝ) : ℝ := (rdgas / rvgas) * e / (pres - e)
/-- `mixrat_to_rh`. -/
noncomputable def mixratToRh (es : ℝ → ℝ) (r temp pres : ℝ) : ℝ := r / eToMixrat (es temp) pres
/-- `sphum_to_rh`. -/
noncomputable def sphumToRh (es : ℝ → ℝ) (q temp pres : ℝ) : ℝ := mixratToRh es (sphumToMixrat q) temp pres
/-- `rh_to_mixrat`. -/
noncomputable def rhToMixrat (es : ℝ → ℝ) (rh temp pres : ℝ) : ℝ := eToMixrat (es temp) pres * rh
/-- `rh_to_sphum`. -/
noncomputable def rhToSphum (es : ℝ → ℝ) (rh temp pres : ℝ) : ℝ := mixratToSphum (rhToMixrat es rh temp pres)

/-- Specific humidity at the output level, 227-231 with `q_extrap` 309-311. -/
noncomputable def sphumOut (es : ℝ → ℝ) (useExtrap : Bool) (s : Slot) (p tin qin : Nat → ℝ) (pout tout : ℝ) :
    ℝ :=
  if useExtrap && s.mask then
    let kb := s.index - 1
    rhToSphum es (sphumToRh es (qin kb) (tin kb) (p kb)) tout pout
  else interpAt s qin

/-! ### Heights -/

/-- Virtual temperature, pressure_interp.F90 239-240 and run_pressure_interp.F90 1716. -/
noncomputable def virtTemp (t q : ℝ) : ℝ := t * (1 + virtc * q)

/-- One round of the loop of `compute_height` for level `k` (1705-1725): from the geopotential `zb` of the half
level below to (that of the half level above, height of the full level).  At the top level of a column with
top pressure 0 the program takes `wta = wtb`; the geopotential so found is not used, so that case is left
out. -/
noncomputable def heightStep (t q pf ph : Nat → ℝ) (missing : Nat → Bool) (k : Nat) (zb : ℝ) : ℝ × ℝ :=
  let wtb := log (ph (k + 1)) - log (pf k)
  let wta := log (pf k) - log (ph k)
  let vt := virtTemp (t k) (q k) * rdgas
  let zt := zb + vt * (wta + wtb)
  if missing k then
    let zt := grav * tref * (1 - (pf k / pref) ^ rgog) / lapse
    (zt, 0.5 * (zt + zb) / grav)
  else (zt, (zb + vt * wtb) / grav)

/-- The geopotential `zb` on entry to the round of the level `n` above the bottom one (`k = nlev - n`). -/
noncomputable def heightBelow (t q pf ph : Nat → ℝ) (missing : Nat → Bool) (nlev : Nat) (zsurf : ℝ) : Nat → ℝ
  | 0 => zsurf * grav
  | n + 1 => (heightStep t q pf ph missing (nlev - n) (heightBelow t q pf ph missing nlev zsurf n)).1

/-- `compute_height`: height of full level `k`. -/
noncomputable def fullHeight (t q pf ph : Nat → ℝ) (missing : Nat → Bool) (nlev : Nat) (zsurf : ℝ) (k : Nat) :
    ℝ :=
  (heightStep t q pf ph missing k (heightBelow t q pf ph missing nlev zsurf (nlev - k))).2

/-- Height of the output level, pressure_interp.F90 251-254. -/
noncomputable def heightOut (s : Slot) (lp tvin z : Nat → ℝ) (lo tvout : ℝ) : ℝ :=
  (lp s.index - lo) * (tvout + tvin s.index) * (0.5 * rdgas / grav) + z s.index

/-- Temperature, specific humidity and height of one output level as `pres_interp_init` computes them when all
are asked for (run_pressure_interp.F90 869-873). -/
noncomputable def levelOut (es : ℝ → ℝ) (maskExtrap : Bool) (p t q z : Nat → ℝ) (kx kbot : Nat) (pout : ℝ) :
    Option (ℝ × ℝ × ℝ) :=
  (slot p kx kbot pout).map fun s =>
    let lp := fun k => log (p k)
    let lo := log pout
    let tout := tempOut (!maskExtrap) s t lp lo
    let qout := sphumOut es (!maskExtrap) s p t q pout tout
    (tout, qout, heightOut s lp (fun k => virtTemp (t k) (q k)) z lo (virtTemp tout qout))

/-! ### Sea level pressure (run_pressure_interp.F90 941-964) -/

/-- First of the `n` levels from `k` on with pressure above 0.8 of the surface pressure. -/
noncomputable def sigmaLevel (pf : Nat → ℝ) (pbot : ℝ) : Nat → Nat → Option Nat
  | 0, _ => none
  | n + 1, k => if 0.8 < pf k / pbot then some k else sigmaLevel pf pbot n (k + 1)

/-- Sea level pressure in millibars of a column with lowest level `kb`; `none` when no level is found and `kr`
is used with whatever value it has. -/
noncomputable def seaLevelPressure (pf ph t : Nat → ℝ) (kb : Nat) (zsurf : ℝ) : Option ℝ :=
  let pbot := ph (kb + 1)
  if 0.0001 < |zsurf| then
    match sigmaLevel pf pbot kb 1 with
    | none => none
    | some kr =>
      let tbot := t kr * (pf kr / pbot) ^ mrgog
      some (0.01 * pbot * (1 + lapse * zsurf / tbot) ^ gorg)
  else some (pbot * 0.01)

end Verif.Plevel
