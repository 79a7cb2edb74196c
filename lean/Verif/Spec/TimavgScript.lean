/-
Specification for C137: calls of timavg. No definition of the model is used.
-/
namespace Verif.Spec.Timavg

abbrev Word := List Char

/-- A word of options on the command line: `-abm`, `-o out.nc`, `-oout.nc`, `-bo out.nc`. The third part of `arg` says that the argument is in the same word. -/
structure Group where
  flags : List Char
  arg : Option (Char × Word × Bool)

def Group.WF (g : Group) : Prop :=
  (∀ c ∈ g.flags, c ∈ ['a', 'b', 'd', 'm', 'W']) ∧ (g.flags = [] → g.arg ≠ none) ∧
    ∀ c x joined, g.arg = some (c, x, joined) → c ∈ ['o', 'w', 'z', 's'] ∧ (joined = true → x ≠ [])

/-- The arguments of the call. -/
def Group.words (g : Group) : List Word :=
  match g.arg with
  | none => ['-' :: g.flags]
  | some (c, x, true) => ['-' :: (g.flags ++ c :: x)]
  | some (c, x, false) => ['-' :: (g.flags ++ [c]), x]

/-- Its options with their values. -/
def Group.opts (g : Group) : List (Char × Word) :=
  g.flags.map (fun c => (c, [])) ++ match g.arg with
    | none => []
    | some (c, x, _) => [(c, x)]

def words (gs : List Group) : List Word := gs.flatMap Group.words

def opts (gs : List Group) : List (Char × Word) := gs.flatMap Group.opts

/-- The option was given. -/
def given (gs : List Group) (c : Char) : Bool := (opts gs).any fun p => p.1 == c

/-- Value of the option: the last one given, or the default. -/
def value (gs : List Group) (c : Char) (default : Word) : Word :=
  (((opts gs).filter fun p => p.1 == c).getLast?.map Prod.snd).getD default

/-- Names that come through: visible ASCII characters, no double quote, no pattern, no two commas side by side. -/
def Plain (w : Word) : Prop :=
  w ≠ [] ∧ w.length ≤ 2048 ∧ (∀ c ∈ w, '!' ≤ c ∧ c ≤ '~' ∧ c ∉ ['"', '*', '?', '[', '\\']) ∧ ¬ [',', ','] <:+: w

/-- Names of output files. -/
def OutName (w : Word) : Prop :=
  w.length ≤ 2048 ∧ '"' ∉ w ∧ w ≠ [] ∧ w.head? ≠ some ' ' ∧ w.getLast? ≠ some ' '

end Verif.Spec.Timavg
