/-
Model of the string lists of mppncscatter: arrays of pointers to strings in which a NULL pointer is a
free slot.

Source: /repo/src/mpp-ncscatter/strlist.c (all routines except printstrlist).

Simplifications: a list of `n` slots is a Lean list of length `n` whose members are `none` (NULL) or
`some s`; the list pointer itself is never NULL; memory allocation succeeds; the routines copy
strings, so there is no sharing to model. Strings are members of an arbitrary type with decidable
equality (`strcmp`), and lists of characters in `getstringlist`.
-/
namespace Verif.StrList

/-- A list with slots. -/
abbrev Slots (α : Type) := List (Option α)

variable {α : Type}

/-- `newstringlist`, strlist.c 42-56. -/
def newList (size : Nat) : Slots α := List.replicate size none

/-- `clearstringlist`, 57-73. -/
def clearList (l : Slots α) : Slots α := l.map fun _ => none

/-- `instringlist`, 126-150: loop over the slots, NULL slots are skipped; a NULL string is in no
list. -/
def inList [DecidableEq α] : Slots α → Option α → Bool
  | _, none => false
  | [], some _ => false
  | none :: l, some s => inList l (some s)
  | some t :: l, some s => if t = s then true else inList l (some s)

/-- `addstringtolist`, 151-173: the first free slot is filled; `false` is EXIT_FAILED. -/
def addToList : Slots α → Option α → Slots α × Bool
  | l, none => (l, false)
  | [], some _ => ([], false)
  | none :: l, some s => (some s :: l, true)
  | some t :: l, some s =>
    let r := addToList l (some s)
    (some t :: r.1, r.2)

/-- One of the two loops of `strlistu`, 206-220. -/
def unionLoop [DecidableEq α] : Slots α → Slots α → Slots α
  | [], u => u
  | none :: l, u => unionLoop l u
  | some s :: l, u => unionLoop l (if inList u (some s) then u else (addToList u (some s)).1)

/-- `strlistu`, 194-223. -/
def strlistu [DecidableEq α] (l1 l2 u : Slots α) : Slots α := unionLoop l2 (unionLoop l1 u)

/-- Loop of `strlistsd` for an empty second list, 240-242. -/
def diffAll : Slots α → Slots α → Slots α
  | [], d => d
  | s :: l, d => diffAll l (addToList d s).1

/-- Loop of `strlistsd`, 245-251. -/
def diffLoop [DecidableEq α] (l2 : Slots α) : Slots α → Slots α → Slots α
  | [], d => d
  | s :: l, d => diffLoop l2 l (if inList l2 s then d else (addToList d s).1)

/-- `strlistsd`, 224-254. -/
def strlistsd [DecidableEq α] (l1 l2 d : Slots α) : Slots α :=
  if l1.length = 0 then d
  else if l2.length = 0 then diffAll l1 d
  else diffLoop l2 l1 d

/-- `copystrlist`, 255-275; `none` is EXIT_FAILED. All slots of the destination are cleared first. -/
def copyList (src dst : Slots α) : Option (Slots α) :=
  if dst.length < src.length then none
  else some (src ++ (dst.drop src.length).map fun _ => none)

/-- `appendstringtolist`, 174-193: a new array with one more slot; `newlist[newsize-1] = string`. -/
def appendToList (l : Slots α) (s : α) : Slots α :=
  let new : Slots α := newList (l.length + 1)
  let new := (copyList l new).getD new
  new.set l.length (some s)

/-- `getnumstrlist`, 276-287, with the test for the empty string given by `nonEmpty`. -/
def numList (nonEmpty : α → Bool) : Slots α → Nat
  | [] => 0
  | none :: l => numList nonEmpty l
  | some s :: l => (if nonEmpty s then 1 else 0) + numList nonEmpty l

/-! ### `getstringlist`, 74-106 -/

/-- The counting loop `while (*p++) { if (*p == ',') ++(*nitems); }` (84): it looks at every character
but the first. -/
def countItems : List Char → Nat
  | [] => 1
  | _ :: cs => 1 + (cs.filter (· = ',')).length

/-- `strtok` skipping leading delimiters, then collecting one token: `cur` is the token read so far
(`[]` if none has begun). The contract of `strtok (s, ",")` called until it returns NULL. -/
def tokens : List Char → List Char → List (List Char)
  | cur, [] => if cur = [] then [] else [cur]
  | cur, c :: cs =>
    if c = ',' then
      if cur = [] then tokens [] cs else cur :: tokens [] cs
    else tokens (cur ++ [c]) cs

/-- `getstringlist`: token number `i` is stored in slot `i`; `none` if there are more tokens than
slots (a write beyond the array). Returns also `*nitems`. -/
def getStringList (arg : List Char) (l : Slots (List Char)) : Option (Slots (List Char) × Nat) :=
  let ts := tokens [] arg
  if l.length < ts.length then none
  else some (ts.map some ++ l.drop ts.length, countItems arg)

end Verif.StrList
