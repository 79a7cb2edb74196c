import Verif.Model.StrList
/-
Sets of strings, with order.
-/
namespace Verif.Spec
open Verif.StrList

variable {α : Type}

/-- The strings held by a list, in the order of the slots. -/
def contents (l : Slots α) : List α := l.filterMap id

/-- Number of free slots. -/
def free (l : Slots α) : Nat := (l.filter Option.isNone).length

/-- `xs` without repetitions: of equal members the first is kept. `seen` are members to leave out. -/
def firstOcc [DecidableEq α] (seen : List α) : List α → List α
  | [] => []
  | x :: xs => if x ∈ seen then firstOcc seen xs else x :: firstOcc (x :: seen) xs

/-- The parts of a text between commas. -/
def parts : List Char → List (List Char)
  | [] => [[]]
  | c :: cs =>
    if c = ',' then [] :: parts cs
    else match parts cs with
      | [] => [[c]]
      | p :: ps => (c :: p) :: ps

end Verif.Spec
