import Verif.Props.TransferMosaic
import Mathlib.Algebra.Field.Rat
import Mathlib.Tactic.NormNum
import Mathlib.Tactic.IntervalCases
/-
C111: cases of the ocean grid of `transfer_to_mosaic_grid`.
-/
namespace Verif.TransferMosaic
open Verif.Spec.TransferMosaic

/-- A grid with cells of `w` by 90 degrees, from longitude 0 and latitude -90. -/
def tmOld (nx ny : Nat) (w : ℚ) (low high : Option (Fld ℚ)) : Old ℚ where
  nx := nx
  ny := ny
  xT := fun _ i => w * i + w / 2
  yT := fun j _ => 90 * j - 45
  xC := fun _ i => w * (i + 1)
  yC := fun j _ => 90 * j
  e := some (fun _ i => w * (i + 1), fun j _ => 90 * j - 45)
  geoE := none
  n := none
  geoN := some (fun _ i => w * i + w / 2, fun j _ => 90 * j)
  xv := fun k _ i => if k = 0 ∨ k = 3 then w * i else w * (i + 1)
  yv := fun k j _ => if k = 0 ∨ k = 1 then 90 * j - 90 else 90 * j
  ds_01_11_C := fun _ _ => 1
  ds_11_21_C := fun _ _ => 2
  ds_11_12_C := fun _ _ => 3
  ds_10_11_C := fun _ _ => 4
  ds_01_11_T := fun _ _ => 5
  ds_10_11_T := fun _ _ => 6
  ds_11_21_T := fun _ _ => 7
  ds_11_12_T := fun _ _ => 8
  ds_02_22_T := fun _ _ => 3
  ds_20_22_T := fun _ _ => 7
  ds_20_21_T := low
  ds_21_22_T := high
  ds_00_10_T := none
  ds_10_20_T := none
  angC := fun _ _ => 0
  angT := none
  angE := none
  angN := none

/-- The first `n` values of an array of the result. -/
def tmList (o : Old ℚ) (f : Grid ℚ → Mem ℚ) (n : Nat) : Option (List (Option ℚ)) :=
  match ocean o with
  | .ok g => some ((List.range n).map (f g))
  | .error _ => none

/-- Two by two cells around the globe: the program accepts the file, the hypotheses of `C111_corners` and `C111_sides` hold. -/
example : ∃ g, ocean (tmOld 2 2 180 none none) = .ok g :=
  (C111_accepts _).2 ⟨⟨_, Or.inl rfl⟩, ⟨_, Or.inr ⟨rfl, rfl⟩⟩⟩

example : Joined 2 2 (tmOld 2 2 180 none none).xC (tmOld 2 2 180 none none).xv ∧
    Around 2 2 (tmOld 2 2 180 none none).xC (tmOld 2 2 180 none none).xv (fun v => v - 360) ∧
    Joined 2 2 (tmOld 2 2 180 none none).yC (tmOld 2 2 180 none none).yv ∧
    Around 2 2 (tmOld 2 2 180 none none).yC (tmOld 2 2 180 none none).yv id ∧ Halves (tmOld 2 2 180 none none) := by
  refine ⟨⟨?_, ?_, ?_, ?_, ?_⟩, ?_, ⟨?_, ?_, ?_, ?_, ?_⟩, ?_, ⟨?_, ?_⟩⟩ <;>
    simp [tmOld, Around] <;> intros <;> first | ring | norm_num

example : tmList (tmOld 2 2 180 none none) (fun g => g.x) 10 =
    some [some 0, some 90, some 180, some 270, some 360, some 0, some 90, some 180, some 270, some 360] := by decide +kernel

/-- Rows 0 and 1 of `dy`. -/
example : tmList (tmOld 2 2 180 none none) (fun g => g.dy) 10 =
    some [some 3, some 6, some 3, some 6, some 3, some 4, some 8, some 4, some 8, some 4] := by decide +kernel

/-- C111, what goes wrong: a regional grid of one cell from 0 to 10 degrees. Its vertices fit together, but the upper left
corner in the supergrid is at -350 degrees. -/
theorem C111_regional_wrong :
    Joined 1 1 (tmOld 1 1 10 none none).xC (tmOld 1 1 10 none none).xv ∧ (tmOld 1 1 10 none none).xv 3 0 0 = 0 ∧
    tmList (tmOld 1 1 10 none none) (fun g => g.x) 7 =
      some [some 0, some 5, some 10, some (-350), some 5, some 10, some (-350)] := by
  refine ⟨⟨?_, ?_, ?_, ?_, ?_⟩, ?_, by decide +kernel⟩ <;> simp [tmOld]

/-- A case of `C111_unread_wrong`. -/
example : tmList (tmOld 1 1 360 none (some fun _ _ => 4)) (fun g => g.dy) 6 =
    some [none, some 6, none, some 4, some 8, some 4] := by decide +kernel

/-- Neither `x_E` nor `geolon_e`. -/
example : ¬ ∃ g, ocean { tmOld 1 1 360 none none with e := none } = .ok g := by
  rw [C111_accepts]
  rintro ⟨⟨pe, h | h⟩, _⟩
  · cases h
  · cases h.2

end Verif.TransferMosaic
