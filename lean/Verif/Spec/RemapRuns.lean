import Verif.Model.RemapRuns
/-
What a user expects from remap files (C134): they change the time a run needs and nothing else.
-/
namespace Verif.Spec.RemapRuns
open Verif.RemapRuns

/-- The same run without remap files, computing everything. -/
def plain {G : Type} (r : Run G) : Run G := { r with remap := none, weightsOnly := false }

/-- The run has the remap file `f` for its tile `n`. -/
def HasFile {G B D W : Type} (c : Grids G B D W) (r : Run G) (n : Nat) (f : Name) : Prop :=
  ∃ name ns, r.remap = some name ∧ names c r.grid name = .ok ns ∧ ns[n]? = some f

/-- Two runs that share a file remap between the same grids and have it for the same tile. -/
def Meet {G B D W : Type} (c : Grids G B D W) (r r' : Run G) : Prop :=
  ∀ n n' f, HasFile c r n f → HasFile c r' n' f → r.grid = r'.grid ∧ n = n'

/-- A name that is neither too short nor too long. -/
def GoodName (name : Name) : Prop := 3 ≤ name.length ∧ name.length ≤ 251

end Verif.Spec.RemapRuns
