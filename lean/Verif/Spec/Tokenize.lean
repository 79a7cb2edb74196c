/-
Specification of splitting a string into words.
-/
namespace Verif.Spec

/-- Blanks and tabs are not part of any word. -/
def squeeze (s : List Char) : List Char := s.filter fun c => c ≠ ' ' ∧ c ≠ '\t'

/-- The words of a string: the non-empty pieces between the separators. -/
def words (seps s : List Char) : List (List Char) :=
  ((squeeze s).splitOnP fun c => seps.contains c).filter fun w => w ≠ []

/-- The string, without blanks, ends within a word. -/
def EndsInWord (seps s : List Char) : Prop := ∃ c, (squeeze s).getLast? = some c ∧ c ∉ seps

end Verif.Spec
