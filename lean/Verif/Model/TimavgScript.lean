/-
The script timavg: /repo/src/timeavg/timavg.sh.in, and how the program reads its namelist: /repo/src/timeavg/time_average.f90 34-54, 93-115, 142-145.

Simplifications: the shell is one in which `${#@}` is the number of arguments (113; bash). File names and options are lists of characters. Expansion of patterns and the test for
readable files are parameters (`Shell`), as are the readers of numbers (`Reader`). `echo` takes `-n`, `-e`, `-E` as options and changes nothing else. `sed` runs in the C locale:
`[:graph:]` is `!` to `~`. A namelist is a list of names with the text of the value; the reader takes them in order, and an error in one of them ends the reading with what has been
set so far (`err=1`, 100-101; the standard leaves more undefined than this). A string that is not closed on its line counts as an error. `command_line` and the time of
the temporary file are left out; `verbose` and `set -x` have no other effect.
-/
namespace Verif.TimavgScript

abbrev Word := List Char

/-! ### getopts -/

/-- 80: `:abdhmo:VWw:z:s:`. `some true` for an option with argument, `none` for an unknown letter. -/
def kind (c : Char) : Option Bool :=
  if c ∈ ['a', 'b', 'd', 'h', 'm', 'V', 'W'] then some false
  else if c ∈ ['o', 'w', 'z', 's'] then some true
  else none

/-- What `getopts` gives: an option (with argument), an unknown letter (`?`), an option whose argument is missing (`:`). -/
inductive Ev where
  | opt (c : Char) (arg : Word)
  | bad (c : Char)
  | missing (c : Char)
  deriving DecidableEq

/-- `getopts` in a loop, 80: first argument is the rest of the word in hand. Second result: what is left after `shift` (107). -/
def getopts : Word → List Word → List Ev × List Word
  | c :: cs, args =>
    match kind c with
    | none => let r := getopts cs args; (.bad c :: r.1, r.2)
    | some false => let r := getopts cs args; (.opt c [] :: r.1, r.2)
    | some true =>
      if cs ≠ [] then let r := getopts [] args; (.opt c cs :: r.1, r.2)
      else match args with
        | [] => ([.missing c], [])
        | a :: rest => let r := getopts [] rest; (.opt c a :: r.1, r.2)
  | [], [] => ([], [])
  | [], a :: rest =>
    match a with
    | '-' :: c :: cs => if c :: cs = ['-'] then ([], rest) else getopts (c :: cs) rest
    | _ => ([], a :: rest)
termination_by w args => (args.length, w.length)

/-! ### Options -/

/-- 35-44 -/
structure Opts where
  ofile : Word := ['t', 'i', 'm', 'a', 'v', 'g', '.', 'n', 'c']
  etime : Bool := true
  verbose : Bool := false
  bounds : Bool := false
  errors : Bool := false
  noWarning : Bool := false
  weight : Word := ['0', '.', '0']
  deflation : Word := ['-', '1']
  shuffle : Word := ['-', '1']

/-- 82-105: one turn of the loop; the exit status if the script ends here. A missing argument has no branch. -/
def option (o : Opts) : Ev → Except Nat Opts
  | .bad _ => .error 1
  | .missing _ => .ok o
  | .opt c x =>
    if c = 'a' then .ok { o with errors := true }
    else if c = 'b' then .ok { o with bounds := true }
    else if c = 'd' then .ok { o with verbose := true }
    else if c = 'h' then .error 0
    else if c = 'm' then .ok { o with etime := false }
    else if c = 'o' then .ok { o with ofile := x }
    else if c = 'V' then .error 0
    else if c = 'W' then .ok { o with noWarning := true }
    else if c = 'w' then .ok { o with weight := x }
    else if c = 'z' then .ok { o with deflation := x }
    else if c = 's' then .ok { o with shuffle := x }
    else .ok o

/-- 80-106 -/
def options : Opts → List Ev → Except Nat Opts
  | o, [] => .ok o
  | o, e :: es =>
    match option o e with
    | .error s => .error s
    | .ok o' => options o' es

/-! ### Files -/

/-- Parameters: readable files (123) and expansion of patterns. -/
structure Shell where
  readable : Word → Bool
  glob : Word → List Word

def blank (c : Char) : Bool := c == ' ' || c == '\t' || c == '\n'

/-- Words of an unquoted expansion. -/
def split : Word → List Word
  | [] => []
  | c :: cs =>
    if blank c then split cs
    else match cs with
      | [] => [[c]]
      | d :: _ =>
        if blank d then [c] :: split cs
        else match split cs with
          | [] => [[c]]
          | w :: ws => (c :: w) :: ws

/-- `$@` in an assignment, 117: the arguments with a blank between them. -/
def join : List Word → Word
  | [] => []
  | [w] => w
  | w :: ws => w ++ ' ' :: join ws

/-- `$ifiles`, 121 and 143 -/
def expand (sh : Shell) (ifiles : Word) : List Word := (split ifiles).flatMap sh.glob

/-- Options of `echo`. -/
def echoFlag : Word → Bool
  | '-' :: c :: cs => (c :: cs).all fun d => d == 'n' || d == 'e' || d == 'E'
  | _ => false

/-- `[[:graph:]]` -/
def graph (c : Char) : Bool := '!' ≤ c && c ≤ '~'

/-- 143: `sed -e 's/\([[:graph:]]*\)/"\1"/g'` on one line. First argument: a match has ended here; then an empty one is not taken. `open_`: characters of the match in hand. -/
def sed : Bool → Option Word → Word → Word
  | _, some m, [] => '"' :: m ++ ['"']
  | after, none, [] => if after then [] else ['"', '"']
  | after, some m, c :: cs =>
    if graph c then sed after (some (m ++ [c])) cs
    else '"' :: m ++ '"' :: c :: sed false none cs
  | after, none, c :: cs =>
    if graph c then sed after (some [c]) cs
    else (if after then [] else ['"', '"']) ++ c :: sed false none cs

/-- 143: `tr -s ' ' ','`. First argument: the last character written was a comma. -/
def tr : Bool → Word → Word
  | _, [] => []
  | last, c :: cs =>
    if c = ' ' ∨ c = ',' then (if last then tr true cs else ',' :: tr true cs)
    else c :: tr false cs

/-- 143 -/
def fileNames (sh : Shell) (ifiles : Word) : Word :=
  tr false (sed false none (join ((expand sh ifiles).dropWhile echoFlag)))

/-! ### The namelist -/

/-- Objects of the namelist, time_average.f90 52-54. -/
inductive Obj where
  | fileNameOut | fileNames | useEndTime | verbose | addCellMethods | skipTavgErrors | suppressWarnings | fracValidData | userDeflation | userShuffle
  deriving DecidableEq

def logical (b : Bool) : Word := if b then ['.', 't', 'r', 'u', 'e', '.'] else ['.', 'f', 'a', 'l', 's', 'e', '.']

/-- 140-154: names and texts of the values, each followed by a comma. -/
def namelist (sh : Shell) (o : Opts) (ifiles : Word) : List (Obj × Word) :=
  [(.fileNameOut, '"' :: o.ofile ++ ['"', ',']), (.fileNames, fileNames sh ifiles ++ [',']), (.useEndTime, logical o.etime ++ [',']), (.verbose, logical o.verbose ++ [',']),
   (.addCellMethods, logical o.bounds ++ [',']), (.skipTavgErrors, logical o.errors ++ [',']), (.suppressWarnings, logical o.noWarning ++ [',']),
   (.fracValidData, o.weight ++ [',']), (.userDeflation, o.deflation ++ [',']), (.userShuffle, o.shuffle ++ [','])]

/-- What the program knows after 93-101. -/
structure Input (K : Type) where
  out : Word
  files : List Word
  endTime : Bool
  verbose : Bool
  cellMethods : Bool
  skipErrors : Bool
  noWarnings : Bool
  frac : K
  deflation : Int
  shuffle : Int

/-- Readers of a number with the comma after it. -/
structure Reader (K : Type) where
  real : Word → Option K
  int : Word → Option Int

/-- time_average.f90 34 -/
def MAX_FILES : Nat := 200
/-- time_average.f90 40 -/
def LEN : Nat := 2048

/-- A string in double quotes, in which two of them stand for one; the rest of the line after it, which has to begin with a separator. First argument: characters so far. -/
def readString : Word → Word → Option (Word × Word)
  | acc, '"' :: '"' :: cs => readString (acc ++ ['"']) cs
  | acc, '"' :: c :: cs => if c = ',' ∨ c = ' ' then some (acc, c :: cs) else none
  | _, ['"'] => none
  | acc, c :: cs => readString (acc ++ [c]) cs
  | _, [] => none

/-- Values of an array of strings, `n` of them at most. A comma at the end of the line is no further value. Second result: error. The first argument bounds the steps. -/
def readStrings : Nat → Nat → Word → List Word × Bool
  | _, _, [','] => ([], false)
  | fuel + 1, n, ',' :: '"' :: cs =>
    match n with
    | 0 => ([], true)
    | n + 1 =>
      match readString [] cs with
      | none => ([], true)
      | some (w, rest) => let r := readStrings fuel n rest; (w :: r.1, r.2)
  | _, _, _ => ([], true)

/-- A value is cut to the length of the variable; blanks at the end do not count (`trim`). -/
def cut (w : Word) : Word := ((w.take LEN).reverse.dropWhile fun c => c == ' ').reverse

def readLogical (w : Word) : Option Bool :=
  if w = ['.', 't', 'r', 'u', 'e', '.', ','] then some true else if w = ['.', 'f', 'a', 'l', 's', 'e', '.', ','] then some false else none

/-- One object: the new values and whether an error occurred. -/
def assign {K : Type} (rd : Reader K) (s : Input K) : Obj × Word → Input K × Bool
  | (.fileNameOut, t) =>
    match t with
    | '"' :: cs => match readString [] cs with
      | some (w, _) => ({ s with out := cut w }, false)
      | none => (s, true)
    | _ => (s, true)
  | (.fileNames, t) => let r := readStrings t.length MAX_FILES (',' :: t); ({ s with files := r.1.map cut }, r.2)
  | (.useEndTime, t) => match readLogical t with | some b => ({ s with endTime := b }, false) | none => (s, true)
  | (.verbose, t) => match readLogical t with | some b => ({ s with verbose := b }, false) | none => (s, true)
  | (.addCellMethods, t) => match readLogical t with | some b => ({ s with cellMethods := b }, false) | none => (s, true)
  | (.skipTavgErrors, t) => match readLogical t with | some b => ({ s with skipErrors := b }, false) | none => (s, true)
  | (.suppressWarnings, t) => match readLogical t with | some b => ({ s with noWarnings := b }, false) | none => (s, true)
  | (.fracValidData, t) => match rd.real t with | some x => ({ s with frac := x }, false) | none => (s, true)
  | (.userDeflation, t) => match rd.int t with | some x => ({ s with deflation := x }, false) | none => (s, true)
  | (.userShuffle, t) => match rd.int t with | some x => ({ s with shuffle := x }, false) | none => (s, true)

/-- time_average.f90 100-101: `read (*,input,end=1,err=1)` -/
def readNamelist {K : Type} (rd : Reader K) : Input K → List (Obj × Word) → Input K
  | s, [] => s
  | s, p :: ps => let r := assign rd s p; if r.2 then r.1 else readNamelist rd r.1 ps

/-- time_average.f90 41-47, 93-97 -/
def start {K : Type} [Zero K] : Input K := ⟨[], [], true, false, false, false, false, 0, -1, -1⟩

/-- First character of a string padded with blanks. -/
def first (w : Word) : Char := w.headD ' '

/-- 107-115: abort, or the files of the loop 143-144: those before the first blank one. -/
def accept {K : Type} (s : Input K) : Option (Input K) :=
  if first (s.files.headD []) = ' ' ∨ first s.out = ' ' ∨ s.deflation < -1 ∨ 9 < s.deflation ∨ s.shuffle < -1 ∨ 1 < s.shuffle then none
  else some { s with files := s.files.takeWhile fun w => first w ≠ ' ' }

/-- How a call of the script ends: with a status before the program is run; program aborted (the status of the script is then not 0, 158-170); averaging with this input. -/
inductive End (K : Type) where
  | exit (status : Nat)
  | abort
  | run (s : Input K)

/-- The script with its arguments, 79-170; the program is installed (133). -/
def timavg {K : Type} [Zero K] (sh : Shell) (rd : Reader K) (args : List Word) : End K :=
  let g := getopts [] args
  match options {} g.1 with
  | .error s => .exit s
  | .ok o =>
    if g.2 = [] then .exit 1
    else if (expand sh (join g.2)).any fun f => !sh.readable f then .exit 1
    else match accept (readNamelist rd start (namelist sh o (join g.2))) with
      | none => .abort
      | some s => .run s

end Verif.TimavgScript
