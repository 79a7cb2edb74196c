import Mathlib.Data.Real.Basic
/-
What cr_lake_files does with the lake fraction of a cell after the interpolation: /repo/tools/simple_hydrog/lakes/cr_lake_files.F90 693-727, 762-787.

Simplifications: `real` is a real number; one cell, because no step reads a neighbour; `where` statements are applied one after the other.
-/
noncomputable section
namespace Verif.LakeCells
open Classical

/-- 41 -/
def missing : ℝ := -9999

/-- What is known of a cell: interpolated water bodies `wbd` and wetlands `pwt`, area, fraction of land, `tocell`, coordinates, `travel`. -/
structure Cell where
  wbd : ℝ
  pwt : ℝ
  area : ℝ
  landFrac : ℝ
  tocell : ℝ
  lat : ℝ
  lon : ℝ
  travel : ℝ

/-- What is written. -/
structure Out where
  lakeFrac : ℝ
  wetland : ℝ
  depth : ℝ
  tau : ℝ
  connected : ℝ
  wholeLake : ℝ
  slope : ℝ

/-- 693-708; `d`, `c`, `s` are lake_depth_small, connect_to_next_0, max_slope_to_next. -/
def start (d c s : ℝ) (x : Cell) : Out := ⟨x.wbd, x.pwt, d, 0, c, x.wbd * x.area, s⟩

/-- 711-719 -/
def ocean (x : Cell) (o : Out) : Out := if x.landFrac = 0 then ⟨missing, missing, missing, missing, missing, missing, missing⟩ else o

/-- 722-726 -/
def coast (x : Cell) (o : Out) : Out := if 0 < x.landFrac ∧ x.landFrac < 1 then { o with lakeFrac := 0, wetland := 0, wholeLake := 0 } else o

/-- 764-783 -/
def regions (thresh : ℝ) (x : Cell) (o : Out) : Out :=
  if x.tocell = missing ∨ o.lakeFrac = missing then o
  else if x.lat < -60 then { o with lakeFrac := 0 }
  else if 70 < x.lat then { o with lakeFrac := 0 }
  else if 58 < x.lat ∧ (302 < x.lon ∧ x.lon < 348) then { o with lakeFrac := 0 }
  else if 1 / 10 < o.lakeFrac ∧ x.travel ≤ thresh then { o with lakeFrac := 0 } else o

/-- 785-787 -/
def noLake (o : Out) : Out := if o.lakeFrac = 0 then { o with wholeLake := 0 } else o

def written (d c s thresh : ℝ) (x : Cell) : Out := noLake (regions thresh x (coast x (ocean x (start d c s x))))

end Verif.LakeCells
