import Verif.Model.CombineNcc
/-
The points of a family of files compressed by gathering.
-/
namespace Verif.Spec
open CombineNcc

/-- A place in the input: file number and position in that file's compressed dimension. -/
abbrev Place := Nat × Nat

/-- All places, file by file. -/
def placesFrom {α : Type} : Nat → List (CFile α) → List Place
  | _, [] => []
  | n, f :: fs => (List.range f.index.length).map (fun k => (n, k)) ++ placesFrom (n + 1) fs

def places {α : Type} (files : List (CFile α)) : List Place := placesFrom 0 files

/-- The grid index stored at a place. -/
def idxAt {α : Type} (files : List (CFile α)) (p : Place) : Int :=
  ((files[p.1]?).bind fun f => f.index[p.2]?).getD 0

/-- The value of variable `v` at a place; `idx` gives the other indices, `c` is the number of the
compressed dimension. -/
def valAt {α : Type} (files : List (CFile α)) (v c : Nat) (idx : List Nat) (p : Place) : Option α :=
  (files[p.1]?).map fun f => f.val v (idx.set c p.2)

/-- `p` comes before `q` in the output: by grid index, then by file, then by position. -/
def Before {α : Type} (files : List (CFile α)) (p q : Place) : Prop :=
  idxAt files p < idxAt files q ∨
    (idxAt files p = idxAt files q ∧ (p.1 < q.1 ∨ (p.1 = q.1 ∧ p.2 < q.2)))

/-- The points of the output: the places with a valid (not negative) index, each once, in ascending
order of the index. -/
def IsOutput {α : Type} (files : List (CFile α)) (pts : List Place) : Prop :=
  pts.Perm ((places files).filter fun p => decide (0 ≤ idxAt files p)) ∧
    pts.Pairwise (Before files)

end Verif.Spec
