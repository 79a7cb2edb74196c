import Verif.Model.River
import Verif.Spec.CheckMask
import Mathlib.Algebra.BigOperators.Group.Finset.Basic
import Mathlib.Order.Interval.Finset.Nat
import Mathlib.Logic.Relation
/-
Specification of a river network on the tiles of a mosaic.
-/
namespace Verif.Spec
open Verif.River

/-- The mosaics that the tool supports: tiles without contacts, one tile that is cyclic in columns, rows or both, and
the cubed sphere. A tile that is cyclic in rows has to be square (see `C54_y_cyclic_wrong`). -/
inductive MeshOk (g : Grid) : Prop
  | walls : g.op = ⟨false, false, false⟩ → MeshOk g
  | xCyclic : g.op = ⟨true, false, false⟩ → g.ntiles = 1 → MeshOk g
  | yCyclic : g.op = ⟨false, true, false⟩ → g.ntiles = 1 → g.nx = g.ny → MeshOk g
  | torus : g.op = ⟨true, true, false⟩ → g.ntiles = 1 → g.nx = g.ny → MeshOk g
  | cube : g.op = ⟨false, false, true⟩ → g.ntiles = 6 → g.nx = g.ny → MeshOk g

/-- `c` is a cell of the grid. -/
def IsCell (g : Grid) (c : Place) : Prop :=
  c.1 < g.ntiles ∧ 1 ≤ c.2.1 ∧ c.2.1 ≤ g.nx ∧ 1 ≤ c.2.2 ∧ c.2.2 ≤ g.ny

instance (g : Grid) (c : Place) : Decidable (IsCell g c) := by unfold IsCell; infer_instance

/-- Place `p`, a cell or a place next to the tile, is where cell `c` is: `c` itself, or the cell met across the side
of the tile. On the cube this is the cell of another face with the same edge. -/
def IsAt (g : Grid) (p c : Place) : Prop :=
  IsCell g c ∧
    ((p.1 = c.1 ∧
        (p.2.1 = c.2.1 ∨ g.op.xCyclic = true ∧ (p.2.1 = 0 ∧ c.2.1 = g.nx ∨ p.2.1 = g.nx + 1 ∧ c.2.1 = 1)) ∧
        (p.2.2 = c.2.2 ∨ g.op.yCyclic = true ∧ (p.2.2 = 0 ∧ c.2.2 = g.ny ∨ p.2.2 = g.ny + 1 ∧ c.2.2 = 1))) ∨
      (g.op.cubic = true ∧ p.1 < 6 ∧ ∃ (s : CubeSide) (k : Nat), 1 ≤ k ∧ k ≤ g.nx ∧ p.2 = s.haloPlace g.nx k ∧
        c.1 ≠ p.1 ∧ CubeCell.Corner g.nx ⟨c.1, c.2.1, c.2.2⟩ (s.edge g.nx p.1 k).1 ∧
        CubeCell.Corner g.nx ⟨c.1, c.2.1, c.2.2⟩ (s.edge g.nx p.1 k).2))

/-- The directions: east, south-east, and so on clockwise. -/
def compass : Nat → Int × Int
  | 0 => (1, 0)
  | 1 => (1, -1)
  | 2 => (0, -1)
  | 3 => (-1, -1)
  | 4 => (-1, 0)
  | 5 => (-1, 1)
  | 6 => (0, 1)
  | _ => (1, 1)

/-- `d` is the cell in direction `k` of cell `c`. -/
def Neighbour (g : Grid) (c : Place) (k : Nat) (d : Place) : Prop :=
  ∃ p : Place, p.1 = c.1 ∧ (p.2.1 : Int) = c.2.1 + (compass k).1 ∧ (p.2.2 : Int) = c.2.2 + (compass k).2 ∧ IsAt g p d

/-- Water of cell `c` flows to cell `d`: the code of `c` is the power of two of the direction. -/
def FlowsTo (g : Grid) (tocell : Place → Int) (c d : Place) : Prop :=
  ∃ k, k < 8 ∧ tocell c = 2 ^ k ∧ Neighbour g c k d

/-- Water of cell `c` reaches the last point `o` of its river in `n` steps. A last point is a cell without outflow,
or one that flows into an ocean cell; the step into the ocean counts. -/
inductive DrainsTo (g : Grid) (missing : Int) (tocell : Place → Int) : Place → Nat → Place → Prop
  | sink {c : Place} : IsCell g c → tocell c = 0 → DrainsTo g missing tocell c 0 c
  | coast {c d : Place} : IsCell g c → FlowsTo g tocell c d → tocell d = missing → DrainsTo g missing tocell c 1 c
  | step {c d o : Place} {n : Nat} : IsCell g c → FlowsTo g tocell c d → tocell d ≠ missing →
      DrainsTo g missing tocell d n o → DrainsTo g missing tocell c (n + 1) o

variable {K : Type*} [Field K] [LinearOrder K] [IsStrictOrderedRing K]

/-- What the tool expects: missing values that cannot be confused with results, land fractions between 0 and 1,
positive areas, and source areas that are not negative and below the value used for the ocean. -/
structure InputOk (g : Grid) (m : Missing K) (landfrac area : Place → K) (srcs : Place → List K) : Prop where
  subA : m.subA < 0
  tocell : m.tocell < 0
  travel : m.travel < 0
  basin : m.basin < 0
  frac : ∀ c, IsCell g c → 0 ≤ landfrac c ∧ landfrac c ≤ 1
  area : ∀ c, IsCell g c → 0 < area c
  srcs : ∀ c, IsCell g c → ∀ x ∈ srcs c, 0 ≤ x ∧ x < 10 ^ 20

/-- The drained area that guides the flow: for a cell that is all land the largest source value, missing (negative)
if there is none; beyond all others for the ocean and the coast. -/
def IsGuide (m : Missing K) (landfrac : Place → K) (srcs : Place → List K) (c : Place) (a : K) : Prop :=
  (landfrac c < 1 ∧ a = 10 ^ 20) ∨
    (landfrac c = 1 ∧ (srcs c = [] ∧ a = m.subA ∨ a ∈ srcs c ∧ ∀ x ∈ srcs c, x ≤ a))

/-- What the flow of a cell has to be, where `a` is the area that guides it. Ocean cells have none, and cells of the
coast drain into the ocean within the cell. The other cells flow to a neighbour with a larger area if there is one: to
the one with the largest area, but beyond 10^12 (a large river) to the largest land cell rather than into the ocean. -/
def DirectionOk (g : Grid) (m : Missing K) (landfrac a : Place → K) (tocell : Place → Int) (c : Place) : Prop :=
  (landfrac c = 0 ∧ tocell c = m.tocell) ∨
  (0 < landfrac c ∧ landfrac c < 1 ∧ tocell c = 0) ∨
  (landfrac c = 1 ∧ (∀ k d, k < 8 → Neighbour g c k d → a d ≤ a c) ∧ tocell c = 0) ∨
  (landfrac c = 1 ∧ ∃ k d, k < 8 ∧ Neighbour g c k d ∧ a c < a d ∧ tocell c = 2 ^ k ∧
    ∀ k' d', k' < 8 → Neighbour g c k' d' → a c < a d' →
      if a c ≤ 10 ^ 12 then a d' ≤ a d else a d' < 10 ^ 20 → a d < 10 ^ 20 ∧ a d' ≤ a d)

/-- All cells of the grid. -/
def cellSet (g : Grid) : Finset Place :=
  Finset.range g.ntiles ×ˢ (Finset.Icc 1 g.nx ×ˢ Finset.Icc 1 g.ny)

open Classical in
/-- The sum of `w` over all cells whose water passes through cell `c`, including `c`. -/
noncomputable def drained (g : Grid) (tocell : Place → Int) (w : Place → K) (c : Place) : K :=
  ∑ x ∈ cellSet g with Relation.ReflTransGen (FlowsTo g tocell) x c, w x

end Verif.Spec
