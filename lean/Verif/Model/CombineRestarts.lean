import Mathlib.Data.List.Dedup
/-
Model of src/combine-restarts/combine_restarts.in.

Names of files are lists of characters without blanks and without characters that are special in patterns and in the shell,
other than the dot. `ls`, `sort` and `grep` are modelled by what they print; the order of `ls` and `sort` is an arbitrary
function. The programs is-compressed, iceberg_comb.sh, combine-ncc and mppnccombine are arbitrary: functions of the names of
their arguments. They do not remove files (the option `-r` is not given to mppnccombine with `-M`). Messages are left out.
-/
namespace Verif.CombineRestarts

abbrev Name := List Char

/-- Characters of words for `\<` and `\>` -/
def isWord (c : Char) : Bool := c.isAlphanum || c = '_'

/-- `\<w\>` found in a text after a character, with `prev` saying whether this is part of a word -/
def wordIn (w : Name) : Bool → Name → Bool
  | prev, [] => !prev && w.isEmpty
  | prev, c :: s =>
    (!prev && w.isPrefixOf (c :: s) && ((c :: s).drop w.length).head?.all (fun d => !isWord d)) || wordIn w (isWord c) s

/-- `\.[0-9]{4}$`, l.111 -/
def hasTail (n : Name) : Bool :=
  5 ≤ n.length && ((n.drop (n.length - 5)).head? = some '.') && (n.drop (n.length - 4)).all Char.isDigit

/-- `sed -r 's/\.[0-9]{4}$//g'`, l.114 -/
def stem (n : Name) : Name := if hasTail n then n.take (n.length - 5) else n

/-- `grep -E '\<res\>|\<nc\>.*\.[0-9]{4}$'`, l.112-114: the bar separates the word `res` from all the rest. A word `nc`
before the tail is a word `nc` of the name without the tail. -/
def candidate (n : Name) : Bool := wordIn ['r', 'e', 's'] false n || (hasTail n && wordIn ['n', 'c'] false (stem n))

/-- A pattern in which the dot stands for any character, at the start of a line -/
def dotMatch : Name → Name → Bool
  | [], [] => true
  | c :: f, d :: n => (c = '.' || c = d) && dotMatch f n
  | _, _ => false

/-- `grep -E "^${f}\.[0-9]{4}$"`, l.122 -/
def matchesPiece (f n : Name) : Bool := hasTail n && dotMatch f (n.take (n.length - 5))

inductive Tool
  | ncc
  | iceberg
  | mpp
deriving DecidableEq

/-- A command: l.130, l.159 and l.191 -/
structure Cmd where
  tool : Tool
  inputs : List Name
  out : Name
deriving DecidableEq

/-- The options `-n` and `-r`, l.72-77 -/
structure Opts where
  dryrun : Bool
  remove : Bool

/-- What the other programs do: whether a file is compressed, whether it has icebergs; for a command whether its exit status is
0, and whether the output file exists after a failure (after success it does) -/
structure World where
  compressed : Name → Bool
  iceberg : Name → Bool
  ok : Cmd → Bool
  partly : Cmd → Bool

/-- The directory, the commands executed with their success, and whether the script goes on -/
structure State where
  dir : List Name
  cmds : List (Cmd × Bool)
  going : Bool

/-- Which program is used, l.126-185 -/
def tool (w : World) (first : Name) : Tool :=
  if w.compressed first then .ncc else if w.iceberg first then .iceberg else .mpp

/-- Removing files, `rm -f` -/
def rm (l dir : List Name) : List Name := dir.filter fun n => !l.contains n

/-- A file that exists after a command -/
def create (n : Name) (dir : List Name) : List Name := if dir.contains n then dir else dir ++ [n]

/-- Combining the pieces `first :: rest` to `f`, l.126-216 -/
def combine (w : World) (o : Opts) (s : State) (f first : Name) (rest : List Name) : State :=
  let c : Cmd := ⟨tool w first, first :: rest, f⟩
  -- l.186-190: an existing output file is removed, with `-n` too
  let dir := if c.tool = .mpp then rm [f] s.dir else s.dir
  if o.dryrun then { s with dir }
  else if w.ok c then
    { dir := if o.remove then rm c.inputs (create f dir) else create f dir, cmds := s.cmds ++ [(c, true)], going := true }
  else { dir := if w.partly c then create f dir else dir, cmds := s.cmds ++ [(c, false)], going := false }

/-- One turn of the loop, l.116-218 -/
def step (sort : List Name → List Name) (w : World) (o : Opts) (s : State) (f : Name) : State :=
  if s.going then
    match (sort s.dir).filter (matchesPiece f) with
    | [] => s
    | first :: rest => combine w o s f first rest
  else s

/-- `restartFiles`, l.114: `sort -u` is `sort` of the different lines -/
def stems (sort : List Name → List Name) (dir : List Name) : List Name :=
  sort (((sort dir).filter candidate).map stem).dedup

/-- The script from l.114 on. The exit status is 0 if `going` is true at the end. -/
def run (sort : List Name → List Name) (w : World) (o : Opts) (dir : List Name) : State :=
  (stems sort dir).foldl (step sort w o) ⟨dir, [], true⟩

end Verif.CombineRestarts
