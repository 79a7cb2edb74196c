import Verif.Model.RemapDest
/-
Specification of the tiles written by remap_land.
-/
namespace Verif.Spec.RemapLand

open Verif.RemapLand

/-- Which tiles a restart file of a given type has: all for land, cana, snow and fire, otherwise those of its kind -/
def inFile : FileType → Kind → Bool
  | .soil, k | .vegn, k => k = .soil
  | .glac, k => k = .glac
  | .lake, k => k = .lake
  | _, _ => true

variable {K : Type} [Field K]

/-- The soil tiles of a destination cell: those of the source cell, their fractions scaled to the soil fraction of the cold
restart file -/
def soilTiles (c : Cell K) : List (DTile K) :=
  match c.soil with
  | none => []
  | some cold => c.soilSrc.map fun x =>
      ⟨.soil, x.frac * cold / (c.soilSrc.map (·.frac)).sum, x.tag, x.tag2, x.idx, c.soilFace⟩

/-- Glacier or lake tiles of a destination cell: those of the source cell with the fraction of the cold restart file -/
def oneTiles (kind : Kind) (cold : Option K) (src : List (Slot K)) (face : Nat) : List (DTile K) :=
  match cold with
  | none => []
  | some cold => src.map fun x => ⟨kind, cold, x.tag, none, x.idx, face⟩

/-- The tiles of a destination cell: soil, then the glacier, then the lake -/
def cellTiles (c : Cell K) : List (DTile K) :=
  soilTiles c ++ oneTiles .glac c.glac c.glacSrc c.glacFace ++ oneTiles .lake c.lake c.lakeSrc c.lakeFace

/-- A cell with a glacier (or lake) in the cold restart file gets exactly one from the source. -/
def OneEach (c : Cell K) : Prop :=
  (c.glac.isSome → c.glacSrc.length = 1) ∧ (c.lake.isSome → c.lakeSrc.length = 1)

/-- The order of the tiles in a file, as pairs of tile number and point: first the tiles 0 of all points, then the tiles 1, and
so on, without those that the file does not have -/
def order (t : FileType) (ntile npts : Nat) (cells : Nat → Cell K) : List (Nat × Nat) :=
  (List.range ntile).flatMap fun n =>
    ((List.range npts).filter fun p => ((cellTiles (cells p))[n]?).any fun d => inFile t d.kind).map fun p => (n, p)

end Verif.Spec.RemapLand
