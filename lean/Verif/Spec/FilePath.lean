import Mathlib.Data.List.Basic
/-
What a path means, for C150.
-/
namespace Verif.Spec.FilePath

/-- Parts between slashes. -/
def parts : List Char → List (List Char)
  | [] => [[]]
  | c :: cs =>
    if c = '/' then [] :: parts cs
    else match parts cs with
      | [] => [[c]]
      | p :: ps => (c :: p) :: ps

/-- The names of directories from the root to a file; `cwd` is the current directory. Empty parts and `.` are left out. -/
def resolve (cwd : List (List Char)) (p : List Char) : List (List Char) :=
  (if p.head? = some '/' then [] else cwd) ++ (parts p).filter (fun w => w ≠ [] ∧ w ≠ ['.'])

/-- A name of a file: not empty, not `.`, without slash and zero byte. -/
def Name (w : List Char) : Prop := w ≠ [] ∧ w ≠ ['.'] ∧ '/' ∉ w ∧ Char.ofNat 0 ∉ w

end Verif.Spec.FilePath
