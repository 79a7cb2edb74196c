import Verif.Model.CouplerTile
/-
Specification of the division of atmosphere cells by make_coupler_mosaic. From the model only the types of the
data are used.
-/
namespace Verif.Spec.Tile

open CouplerTile

variable {K L O : Type} [Field K] [LinearOrder K]

/-- Sum over a list of cells. -/
def total {X : Type} (xs : List X) (f : X → K) : K := (xs.map f).sum

/-- The clipping is right: the atmosphere cell consists of pieces, the piece `T l o` being the part inside land
cell `l` and ocean cell `o`, and every area found by clipping is the area of these pieces. -/
structure Pieces (g : Geometry K L O) (lnds : List L) (ocns : List O) (T : L → O → K) : Prop where
  nonneg : ∀ l o, 0 ≤ T l o
  areaA : 0 < g.areaA
  areaL : ∀ l ∈ lnds, 0 < g.areaL l
  areaO : ∀ o ∈ ocns, 0 < g.areaO o
  frac : ∀ o ∈ ocns, 0 ≤ g.frac o ∧ g.frac o ≤ 1
  clipAL : ∀ l ∈ lnds, (g.clipAL l).getD 0 = total ocns (T l)
  clipAO : ∀ o ∈ ocns, (g.clipAO o).getD 0 = total lnds (T · o)
  clipALO : ∀ l ∈ lnds, ∀ o ∈ ocns, (g.clipALO l o).getD 0 = T l o
  outside : ∀ o ∈ ocns, g.outside o = true → total lnds (T · o) = 0
  whole : total lnds (fun l => total ocns (T l)) = g.areaA

/-- Number of parts of the atmosphere cell: by ocean cell, by land cell, and by both. -/
def parts (lnds : List L) (ocns : List O) (T : L → O → K) : Nat :=
  (ocns.filter fun o => decide (0 < total lnds (T · o))).length
  + (lnds.filter fun l => decide (0 < total ocns (T l))).length
  + (lnds.map fun l => (ocns.filter fun o => decide (0 < T l o)).length).sum

/-- Area that a list of exchange cells gives to one parent cell. -/
def areaOf {P : Type} [DecidableEq P] (xs : List (P × K)) (p : P) : K :=
  total (xs.filter fun e => e.1 = p) Prod.snd

/-- Number of atmosphere cells outside the nest tile that overlap an ocean cell. -/
def overlaps {A : Type} (nest : A → Bool) (atms : List A) (lnds : List L) (T : A → L → O → K) (o : O) : Nat :=
  (atms.filter fun a => !nest a && decide (0 < total lnds (T a · o))).length

end Verif.Spec.Tile
