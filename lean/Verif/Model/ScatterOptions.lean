import Verif.Model.CString
/-
Command line of mppncscatter and names of its output files: /repo/src/mpp-ncscatter/opt.c 21-45, 89-206, opt.h 79-96, mppncscatter.c 59-79 (number of files), 1279-1287, 1325-1341 (names).

Simplifications: `getopt_long` is that of the GNU C library (operands anywhere, long names may be cut short, `POSIXLY_CORRECT` not set); numbers do not overflow; the lists of `-X` and
`-Y` are kept as texts (C17 has `getstringlist`); messages are left out. Undefined: buffers too small (1331, 1340) and `%` in the prefix, which becomes part of a format (1331).
-/
namespace Verif.ScatterOptions

abbrev Word := List Char

/-! ### getopt_long -/

/-- opt.c 108: `hi:j:np:s:vVw:x:y:X:Y:` -/
def kind (c : Char) : Option Bool :=
  if c ∈ ['h', 'n', 'v', 'V'] then some false
  else if c ∈ ['i', 'j', 'p', 's', 'w', 'x', 'y', 'X', 'Y'] then some true
  else none

/-- opt.h 79-96 -/
def longOptions : List (Word × Char) :=
  [("help".toList, 'h'), ("io-layout-x".toList, 'i'), ("io-layout-y".toList, 'j'), ("usage".toList, 'h'), ("dry-run".toList, 'n'), ("start".toList, 's'), ("version".toList, 'v'),
   ("verbose".toList, 'V'), ("width".toList, 'w'), ("npx".toList, 'x'), ("xdims".toList, 'X'), ("npy".toList, 'y'), ("ydims".toList, 'Y'), ("prefix".toList, 'p')]

/-- Exact name, or a beginning that fits one letter only. -/
def findLong (name : Word) : Option Char :=
  match longOptions.find? (fun p => p.1 == name) with
  | some p => some p.2
  | none =>
    match ((longOptions.filter fun p => name.isPrefixOf p.1).map Prod.snd).dedup with
    | [c] => some c
    | _ => none

/-- An option with its argument, or an error (`?`). -/
inductive Ev where
  | opt (c : Char) (arg : Word)
  | bad
  deriving DecidableEq

/-- Options and operands. First argument: the rest of a word of short options. -/
def getopt : Word → List Word → List Ev × List Word
  | c :: cs, args =>
    match kind c with
    | none => let r := getopt cs args; (.bad :: r.1, r.2)
    | some false => let r := getopt cs args; (.opt c [] :: r.1, r.2)
    | some true =>
      if cs ≠ [] then let r := getopt [] args; (.opt c cs :: r.1, r.2)
      else match args with
        | [] => ([.bad], [])
        | a :: rest => let r := getopt [] rest; (.opt c a :: r.1, r.2)
  | [], [] => ([], [])
  | [], a :: rest =>
    match a with
    | '-' :: '-' :: [] => ([], rest)
    | '-' :: '-' :: text =>
      match findLong (text.takeWhile (· ≠ '=')), (text.dropWhile (· ≠ '=')) with
      | none, _ => let r := getopt [] rest; (.bad :: r.1, r.2)
      | some c, [] =>
        if kind c = some false then let r := getopt [] rest; (.opt c [] :: r.1, r.2)
        else match rest with
          | [] => ([.bad], [])
          | x :: rest' => let r := getopt [] rest'; (.opt c x :: r.1, r.2)
      | some c, _ :: x =>
        let r := getopt [] rest
        ((if kind c = some false then .bad else .opt c x) :: r.1, r.2)
    | '-' :: c :: cs => getopt (c :: cs) rest
    | _ => let r := getopt [] rest; (r.1, a :: r.2)
termination_by w args => (args.length, w.length)

/-! ### getmnsopts -/

/-- Value of digits from the left. -/
def digitsVal : Nat → Word → Nat
  | n, c :: cs => if c.isDigit then digitsVal (10 * n + (c.toNat - '0'.toNat)) cs else n
  | n, [] => n

/-- `atoi`: blanks, a sign, digits. -/
def atoi (w : Word) : Int :=
  match w.dropWhile fun c => c == ' ' || c == '\t' || c == '\n' with
  | '-' :: cs => -(digitsVal 0 cs : Int)
  | '+' :: cs => digitsVal 0 cs
  | cs => digitsVal 0 cs

/-- opt.h 53-70, with the values of opt.c 28-45. -/
structure Opts where
  dryrun : Bool := false
  help : Bool := false
  version : Bool := false
  verbose : Bool := false
  nx : Int := 0
  ny : Int := 0
  nxio : Int := 0
  nyio : Int := 0
  pre : Option Word := none
  start : Int := 0
  width : Int := 4
  xdims : Option Word := none
  ydims : Option Word := none
  deriving DecidableEq

/-- opt.c 112-175. The branch of `p` goes on in that of `s` (125-132). -/
def step (o : Opts) : Ev → Opts
  | .bad => { o with help := true }
  | .opt c x =>
    if c = 'i' then { o with nxio := atoi x }
    else if c = 'j' then { o with nyio := atoi x }
    else if c = 'n' then { o with dryrun := true }
    else if c = 'p' then { o with pre := some x, start := atoi x }
    else if c = 's' then { o with start := atoi x }
    else if c = 'x' then { o with nx := atoi x }
    else if c = 'y' then { o with ny := atoi x }
    else if c = 'v' then { o with version := true }
    else if c = 'V' then { o with verbose := true }
    else if c = 'w' then { o with width := atoi x }
    else if c = 'h' then { o with help := true }
    else if c = 'X' then { o with xdims := some x }
    else if c = 'Y' then { o with ydims := some x }
    else o

/-- opt.c 89-206: options and input file; `none` for the return value -1, with which `main` ends at once (main.c 34-36). -/
def getmnsopts (args : List Word) : Option (Opts × Word) :=
  let r := getopt [] args
  let o := r.1.foldl step {}
  if o.help || o.version then none
  else match r.2 with
    | [] => none
    | f :: _ => some (o, f)

/-! ### Names -/

/-- `%0wd` where `w` has been printed into the format with `%d`: a negative number gives the flag `-`, which fills with blanks on the right. -/
def number (w n : Int) : Word :=
  let sign : Word := if n < 0 then ['-'] else []
  let d := CString.digits n.natAbs
  let fill := w.natAbs - (sign.length + d.length)
  if w < 0 then sign ++ d ++ List.replicate fill ' ' else sign ++ List.replicate fill '0' ++ d

/-- mppncscatter.c 1281-1287: the part after the last `/`. -/
def base (f : Word) : Word := (f.reverse.takeWhile (· ≠ '/')).reverse

/-- 1326-1331: what stands before the name. -/
def lead (o : Opts) : Word :=
  match o.pre with
  | none => []
  | some p => if p = [] then [] else p ++ ['/']

/-- 59-79 -/
def numFiles (o : Opts) : Int := if o.nxio ≠ 0 ∧ o.nyio ≠ 0 then o.nxio * o.nyio else o.nx * o.ny

/-- 1266, 1275 -/
def BUF : Nat := 256

/-- 1331, 1339-1341: names of the files in the order of their numbers; `none` if undefined. -/
def names (o : Opts) (f : Word) : Option (List Word) :=
  let fmt := (lead o).length + "%s.%0".length + (number 0 o.width).length + "d".length
  let all := (List.range (numFiles o).toNat).map fun (i : Nat) => lead o ++ base f ++ '.' :: number o.width (i + o.start)
  if '%' ∈ lead o ∨ BUF ≤ fmt ∨ ∃ w ∈ all, BUF ≤ w.length then none else some all

end Verif.ScatterOptions
