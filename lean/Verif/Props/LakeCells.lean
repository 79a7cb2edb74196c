import Verif.Model.LakeCells
import Mathlib.Tactic.NormNum
import Mathlib.Tactic.Linarith
/-
C152: the lake fraction that is written.
-/
noncomputable section
namespace Verif
open LakeCells

namespace Spec.LakeCells
/-- Antarctica, Arctic, Greenland. -/
def Ice (lat lon : ℝ) : Prop := lat < -60 ∨ 70 < lat ∨ (58 < lat ∧ 302 < lon ∧ lon < 348)
end Spec.LakeCells
open Spec.LakeCells

private theorem ocean_same {x : Cell} (h : x.landFrac ≠ 0) (o : Out) : ocean x o = o := if_neg h
private theorem coast_same {x : Cell} (h : ¬(0 < x.landFrac ∧ x.landFrac < 1)) (o : Out) : coast x o = o := if_neg h

private theorem regions_skip {thresh : ℝ} {x : Cell} {o : Out} (h : x.tocell = missing ∨ o.lakeFrac = missing) : regions thresh x o = o := if_pos h

private theorem regions_value {thresh : ℝ} {x : Cell} {o : Out} (h : ¬(x.tocell = missing ∨ o.lakeFrac = missing)) :
    ((Ice x.lat x.lon ∨ (1 / 10 < o.lakeFrac ∧ x.travel ≤ thresh)) → regions thresh x o = { o with lakeFrac := 0 }) ∧
    (¬(Ice x.lat x.lon ∨ (1 / 10 < o.lakeFrac ∧ x.travel ≤ thresh)) → regions thresh x o = o) := by
  unfold Ice regions
  rw [if_neg h]
  constructor
  · rintro ((a | a | a) | a)
    · rw [if_pos a]
    · by_cases c : x.lat < -60
      · rw [if_pos c]
      · rw [if_neg c, if_pos a]
    · by_cases c : x.lat < -60
      · rw [if_pos c]
      · rw [if_neg c]
        by_cases d : 70 < x.lat
        · rw [if_pos d]
        · rw [if_neg d, if_pos a]
    · by_cases c : x.lat < -60
      · rw [if_pos c]
      · rw [if_neg c]
        by_cases d : 70 < x.lat
        · rw [if_pos d]
        · rw [if_neg d]
          by_cases e : 58 < x.lat ∧ (302 < x.lon ∧ x.lon < 348)
          · rw [if_pos e]
          · rw [if_neg e, if_pos a]
  · intro q
    rw [if_neg (fun a => q (.inl (.inl a))), if_neg (fun a => q (.inl (.inr (.inl a)))), if_neg (fun a => q (.inl (.inr (.inr a)))), if_neg (fun a => q (.inr a))]

/-- In the ocean all fields are missing. -/
theorem C152_ocean (d c s thresh : ℝ) (x : Cell) (h : x.landFrac = 0) : written d c s thresh x = ⟨missing, missing, missing, missing, missing, missing, missing⟩ := by
  unfold written ocean
  rw [if_pos h, coast_same (by rw [h]; exact fun q => lt_irrefl _ q.1), regions_skip (.inr rfl)]
  unfold noLake
  rw [if_neg (by simp only; unfold missing; norm_num)]

/-- At the coast there is no lake and no wetland. -/
theorem C152_coast (d c s thresh : ℝ) (x : Cell) (h0 : 0 < x.landFrac) (h1 : x.landFrac < 1) :
    written d c s thresh x = ⟨0, 0, d, 0, c, 0, s⟩ := by
  unfold written
  rw [ocean_same (ne_of_gt h0)]
  unfold coast
  rw [if_pos ⟨h0, h1⟩]
  by_cases q : x.tocell = missing
  · rw [regions_skip (.inl q)]
    unfold noLake start
    rw [if_pos rfl]
  · have nm : ¬(x.tocell = missing ∨ ({ start d c s x with lakeFrac := 0, wetland := 0, wholeLake := 0 } : Out).lakeFrac = missing) := by
      rintro (a | a)
      · exact q a
      · simp only at a; unfold missing at a; norm_num at a
    obtain ⟨r1, r2⟩ := regions_value (thresh := thresh) nm
    by_cases z : Ice x.lat x.lon ∨ (1 / 10 < ({ start d c s x with lakeFrac := 0, wetland := 0, wholeLake := 0 } : Out).lakeFrac ∧ x.travel ≤ thresh)
    · rw [r1 z]; unfold noLake start; rw [if_pos rfl]
    · rw [r2 z]; unfold noLake start; rw [if_pos rfl]

/-- On land, with an interpolated value and a river direction: no lake in the ice regions and none of more than a tenth of the cell within `travel_thresh` cells of the mouth of a river; else
the interpolated fraction. Its area is the fraction of the area of the cell. -/
theorem C152_land (d c s thresh : ℝ) (x : Cell) (h : 1 ≤ x.landFrac) (ht : x.tocell ≠ missing) (hw : x.wbd ≠ missing) :
    ((Ice x.lat x.lon ∨ (1 / 10 < x.wbd ∧ x.travel ≤ thresh)) → written d c s thresh x = ⟨0, x.pwt, d, 0, c, 0, s⟩) ∧
    (¬(Ice x.lat x.lon ∨ (1 / 10 < x.wbd ∧ x.travel ≤ thresh)) → written d c s thresh x = ⟨x.wbd, x.pwt, d, 0, c, x.wbd * x.area, s⟩) := by
  unfold written
  rw [ocean_same (by linarith), coast_same (by rintro ⟨_, q⟩; linarith)]
  obtain ⟨r1, r2⟩ := regions_value (thresh := thresh) (x := x) (o := start d c s x) (by rintro (a | a); exacts [ht a, hw a])
  constructor
  · intro q
    rw [r1 q]
    unfold noLake start
    rw [if_pos rfl]
  · intro q
    rw [r2 q]
    unfold noLake start
    by_cases z : x.wbd = 0
    · rw [if_pos z]; simp [z]
    · rw [if_neg z]

/-- Wherever a lake fraction is written, the area of the lake is the fraction of the area of the cell. -/
theorem C152_whole_lake (d c s thresh : ℝ) (x : Cell) (h : (written d c s thresh x).lakeFrac ≠ missing) :
    (written d c s thresh x).wholeLake = (written d c s thresh x).lakeFrac * x.area := by
  by_cases h0 : x.landFrac = 0
  · rw [C152_ocean d c s thresh x h0] at h; exact absurd rfl h
  · by_cases h1 : 0 < x.landFrac ∧ x.landFrac < 1
    · rw [C152_coast d c s thresh x h1.1 h1.2]; simp
    · have e : written d c s thresh x = noLake (regions thresh x (start d c s x)) := by
        unfold written; rw [ocean_same h0, coast_same h1]
      rw [e] at h ⊢
      by_cases q : x.tocell = missing ∨ (start d c s x).lakeFrac = missing
      · rw [regions_skip q]
        unfold noLake start
        by_cases z : x.wbd = 0
        · rw [if_pos z]; simp [z]
        · rw [if_neg z]
      · obtain ⟨r1, r2⟩ := regions_value (thresh := thresh) q
        by_cases z : Ice x.lat x.lon ∨ (1 / 10 < (start d c s x).lakeFrac ∧ x.travel ≤ thresh)
        · rw [r1 z]; unfold noLake; rw [if_pos rfl]; simp
        · rw [r2 z]
          unfold noLake start
          by_cases z : x.wbd = 0
          · rw [if_pos z]; simp [z]
          · rw [if_neg z]

/-- Where the interpolation has no value on land, the fraction is missing but the area is -9999 times the area of the cell. -/
theorem C152_missing_wrong (d c s thresh : ℝ) (x : Cell) (h : 1 ≤ x.landFrac) (hw : x.wbd = missing) (ha : x.area ≠ 1) :
    (written d c s thresh x).lakeFrac = missing ∧ (written d c s thresh x).wholeLake = missing * x.area ∧ (written d c s thresh x).wholeLake ≠ missing := by
  have hm : missing ≠ 0 := by unfold missing; norm_num
  have e : written d c s thresh x = start d c s x := by
    unfold written
    rw [ocean_same (by linarith), coast_same (by rintro ⟨_, q⟩; linarith), regions_skip (.inr hw)]
    unfold noLake
    rw [if_neg (show ¬(start d c s x).lakeFrac = 0 by show ¬x.wbd = 0; rw [hw]; exact hm)]
  rw [e]
  refine ⟨hw, ?_, ?_⟩
  · show x.wbd * x.area = _; rw [hw]
  · show x.wbd * x.area ≠ _
    rw [hw]
    intro q
    exact ha (mul_left_cancel₀ hm (by rw [q, mul_one]))

/-- A cell with a third of water, far from the sea. -/
example : written 2 0 1 3 ⟨1 / 3, 1 / 10, 900, 1, 4, 45, 90, 5⟩ = ⟨1 / 3, 1 / 10, 2, 0, 0, 1 / 3 * 900, 1⟩ :=
  (C152_land 2 0 1 3 ⟨1 / 3, 1 / 10, 900, 1, 4, 45, 90, 5⟩ (by norm_num) (by unfold missing; norm_num) (by unfold missing; norm_num)).2 (by unfold Ice; norm_num)

/-- The same at the mouth of a river, and in Greenland. -/
example : written 2 0 1 3 ⟨1 / 3, 1 / 10, 900, 1, 4, 45, 90, 2⟩ = ⟨0, 1 / 10, 2, 0, 0, 0, 1⟩ ∧ written 2 0 1 3 ⟨1 / 3, 1 / 10, 900, 1, 4, 60, 320, 5⟩ = ⟨0, 1 / 10, 2, 0, 0, 0, 1⟩ :=
  ⟨(C152_land 2 0 1 3 ⟨1 / 3, 1 / 10, 900, 1, 4, 45, 90, 2⟩ (by norm_num) (by unfold missing; norm_num) (by unfold missing; norm_num)).1 (.inr (by norm_num)),
   (C152_land 2 0 1 3 ⟨1 / 3, 1 / 10, 900, 1, 4, 60, 320, 5⟩ (by norm_num) (by unfold missing; norm_num) (by unfold missing; norm_num)).1 (.inl (.inr (.inr (by norm_num))))⟩

/-- A cell of land without data. -/
example : (written 2 0 1 3 ⟨missing, missing, 900, 1, 4, 45, 90, 5⟩).wholeLake = missing * 900 :=
  (C152_missing_wrong 2 0 1 3 ⟨missing, missing, 900, 1, 4, 45, 90, 5⟩ (by norm_num) rfl (by norm_num)).2.1

end Verif
