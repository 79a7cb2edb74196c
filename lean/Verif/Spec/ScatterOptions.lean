/-
Specification for C138: command lines of mppncscatter. No definition of the model is used.
-/
namespace Verif.Spec.ScatterOptions

abbrev Word := List Char

/-- Options with a value, by letter and long name. -/
def valued : List (Char × Word) :=
  [('i', "io-layout-x".toList), ('j', "io-layout-y".toList), ('p', "prefix".toList), ('s', "start".toList), ('w', "width".toList), ('x', "npx".toList), ('y', "npy".toList),
   ('X', "xdims".toList), ('Y', "ydims".toList)]

/-- A part of the command line: `-nVx 4` or `-nVx4` (flags, then perhaps an option with its value in the next or in the same word), `--npx 4` or `--npx=4`, an input file. -/
inductive Item where
  | short (flags : List Char) (arg : Option (Char × Word × Bool))
  | long (c : Char) (name : Word) (x : Word) (joined : Bool)
  | file (f : Word)

def Item.WF : Item → Prop
  | .short flags arg => (∀ c ∈ flags, c = 'n' ∨ c = 'V') ∧ (flags = [] → arg ≠ none) ∧
      ∀ c x joined, arg = some (c, x, joined) → c ∈ valued.map Prod.fst ∧ (joined = true → x ≠ [])
  | .long c name _ _ => (c, name) ∈ valued
  | .file f => f.head? ≠ some '-'

/-- The arguments of the call. -/
def Item.words : Item → List Word
  | .short flags none => ['-' :: flags]
  | .short flags (some (c, x, true)) => ['-' :: (flags ++ c :: x)]
  | .short flags (some (c, x, false)) => ['-' :: (flags ++ [c]), x]
  | .long _ name x true => ['-' :: '-' :: (name ++ '=' :: x)]
  | .long _ name x false => ['-' :: '-' :: name, x]
  | .file f => [f]

/-- Options with their values. -/
def Item.opts : Item → List (Char × Word)
  | .short flags none => flags.map fun c => (c, [])
  | .short flags (some (c, x, _)) => flags.map (fun c => (c, [])) ++ [(c, x)]
  | .long c _ x _ => [(c, x)]
  | .file _ => []

def Item.files : Item → List Word
  | .file f => [f]
  | _ => []

def words (l : List Item) : List Word := l.flatMap Item.words
def opts (l : List Item) : List (Char × Word) := l.flatMap Item.opts
def files (l : List Item) : List Word := l.flatMap Item.files

def given (l : List Item) (c : Char) : Bool := (opts l).any fun p => p.1 == c

/-- The last value of an option. -/
def value (l : List Item) (c : Char) : Option Word := ((opts l).filter fun p => p.1 == c).getLast?.map Prod.snd

end Verif.Spec.ScatterOptions
