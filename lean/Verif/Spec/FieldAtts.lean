import Verif.Model.FieldAtts
/-
Specification of attributes: a list of entries "name: value", separated by blanks.
-/
namespace Verif.Spec.FieldAtts
open Verif.FieldAtts

/-- An entry, with the numbers of blanks behind the colon and behind the value (one more between entries). -/
structure Entry where
  name : Str
  value : Str
  gap : Nat
  behind : Nat

/-- Names and values are words without colons, values are not empty. -/
def Entry.Ok (e : Entry) : Prop := (' ' ∉ e.name ∧ ':' ∉ e.name) ∧ (' ' ∉ e.value ∧ ':' ∉ e.value) ∧ e.value ≠ []

/-- The attribute. -/
def text : List Entry → Str
  | [] => []
  | [e] => e.name ++ ':' :: (List.replicate e.gap ' ' ++ (e.value ++ List.replicate e.behind ' '))
  | e :: l => e.name ++ ':' :: (List.replicate e.gap ' ' ++ (e.value ++ (List.replicate (e.behind + 1) ' ' ++ text l)))

/-- The value of the first entry with a name. -/
def lookup (k : Str) : List Entry → Option Str
  | [] => none
  | e :: l => if e.name = k then some e.value else lookup k l

/-- A file name in a directory, if one is given. -/
def inDir : Option Str → Str → Str
  | some d, v => d ++ ['/'] ++ v
  | none, v => v

end Verif.Spec.FieldAtts
