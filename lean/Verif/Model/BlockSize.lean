import Mathlib.Data.List.Basic
/-
The block size of files: /repo/lib/libfrencutils/mpp_io.c `mpp_open` 81-118.

Simplifications: bytes are `Char`; `mpp_error` ends the program. `broken`: undefined behaviour (a byte before the text is read, a message longer than its array, `atoi` of a number that is not an
`int`).
-/
namespace Verif.BlockSize

inductive Result where
  | size (n : Nat)
  | error
  | broken
deriving DecidableEq

def digit (c : Char) : Bool := decide ('0' ≤ c) && decide (c ≤ '9')

/-- `sprintf` to `errmsg[512]` (83) and `mpp_error`: the text has `k` more characters than the value. -/
def fail (s : List Char) (k : Nat) : Result := if s.length + k + 1 ≤ 512 then .error else .broken

/-- 96-110: `none` if all characters are accepted -/
def check (s : List Char) : List Char → Option Result
  | [] => none
  | [c] => if !digit c && c ≠ 'K' && c ≠ 'M' then some (fail s 100) else none
  | c :: d :: cs => if !digit c then some (fail s 102) else check s (d :: cs)

/-- `atoi` of a text that does not begin with space or sign -/
def atoi (acc : Nat) : List Char → Nat
  | [] => acc
  | c :: cs => if digit c then atoi (acc * 10 + (c.toNat - 48)) cs else acc

/-- 94-116 -/
def parse (s : List Char) : Result :=
  match check s s with
  | some r => r
  | none =>
    if 2147483647 < atoi 0 s then .broken
    else match s.getLast? with
      | none => .broken
      | some c => if c = 'K' then .size (atoi 0 s * 1024) else if c = 'M' then .size (atoi 0 s * (1024 * 1024)) else .size (atoi 0 s)

/-- 84-118: the block size of each call of `mpp_open`; `env` is what `getenv` gives at each call. The static variables are `first_call` and `blksz`. -/
def opens (first : Bool) (blksz : Result) : List (Option (List Char)) → List Result
  | [] => []
  | e :: es =>
    let b := if first then (match e with | none => blksz | some s => parse s) else blksz
    match b with
    | .size n => .size n :: opens false (.size n) es
    | r => [r]

end Verif.BlockSize
