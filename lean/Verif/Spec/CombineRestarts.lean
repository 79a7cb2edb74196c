import Verif.Model.CombineRestarts
import Mathlib.Data.List.Forall2
/-
Specification for C99: sets of pieces.
-/
namespace Verif.Spec.CombineRestarts

open Verif.CombineRestarts (Name isWord World Tool)

/-- `n` is a piece of `f`: its name has a dot and four digits more -/
def Piece (f n : Name) : Prop := ∃ d : Name, d.length = 4 ∧ (∀ c ∈ d, c.isDigit = true) ∧ n = f ++ '.' :: d

/-- `w` is a word of `n` -/
def HasWord (w n : Name) : Prop :=
  ∃ a b, n = a ++ w ++ b ∧ (∀ c ∈ a.getLast?, isWord c = false) ∧ (∀ c ∈ b.head?, isWord c = false)

/-- The names of restart files have the word `res` or `nc` -/
def Restart (f : Name) : Prop := HasWord "res".toList f ∨ HasWord "nc".toList f

/-- Equal, but for dots of the first name -/
def SameButDots : Name → Name → Prop := List.Forall₂ fun c d => c = '.' ∨ c = d

/-- No two names of the directory, with or without numbers at the end, can be taken for each other if dots are not looked at;
and no name has two numbers at its end. -/
structure Separate (dir : List Name) : Prop where
  dots : ∀ f g n, (f ∈ dir ∨ ∃ m ∈ dir, Piece f m) → n ∈ dir → Piece g n → SameButDots f g → f = g
  single : ∀ g n, n ∈ dir → Piece g n → ∀ h, ¬ Piece h g

/-- The program for a set whose first piece is `first`: for compressed files that for compressed files, otherwise that for icebergs if there are
icebergs, otherwise the one for distributed files -/
def Chosen (w : World) (first : Name) (t : Tool) : Prop :=
  (t = .ncc ↔ w.compressed first = true) ∧ (t = .iceberg ↔ w.compressed first = false ∧ w.iceberg first = true) ∧
  (t = .mpp ↔ w.compressed first = false ∧ w.iceberg first = false)

end Verif.Spec.CombineRestarts
