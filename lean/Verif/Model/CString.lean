import Mathlib.Data.List.Infix
/-
Functions of the C library on texts. A text is the list of its characters without the final zero.
-/
namespace Verif.CString

/-- Decimal digits of a number, `%d` of `sprintf` -/
def digits (n : Nat) : List Char := Nat.toDigits 10 n

/-- `strstr(s, p) != NULL`: `p` is a part of `s`. Tries every place from the left. -/
def strstr : List Char → List Char → Bool
  | [], p => p.isEmpty
  | c :: s, p => p.isPrefixOf (c :: s) || strstr s p

end Verif.CString
