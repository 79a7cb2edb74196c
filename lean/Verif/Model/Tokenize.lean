/-
Model of `tokenize`, /repo/lib/libfrencutils/mosaic_util.c 113-152.

Simplifications: a string is the list of its characters before the terminating zero. The rows of `pstring` are a list
of words. A row is `varlen` characters and is never written twice; that the writes stay inside the rows and the
rows inside the array is the content of the two errors.
-/
namespace Verif.Tokenize

inductive TokErr
  | empty      -- "to-be-parsed string is empty"
  | tooMany    -- "number of variables exceeds limit"
  | tooLong    -- "variable name length exceeds limit during tokenization"
deriving DecidableEq, Repr

/-- The loop 125-147. `done` are the rows before row `nvar`, `cur` is row `nvar`, its length is `j`. -/
def tokGo (tokens : List Char) (varlen maxvar : Nat) :
    (s : List Char) → (done : List (List Char)) → (cur : List Char) → Except TokErr (List (List Char))
  | [], done, cur => .ok (done ++ [cur])
  | c :: cs, done, cur =>
    if c ≠ ' ' ∧ c ≠ '\t' then
      if tokens.contains c then
        if cur.length ≠ 0 then
          if done.length + 1 ≥ maxvar then .error .tooMany
          else tokGo tokens varlen maxvar cs (done ++ [cur]) []
        else tokGo tokens varlen maxvar cs done cur
      else if cur.length + 1 ≥ varlen then .error .tooLong
      else tokGo tokens varlen maxvar cs done (cur ++ [c])
    else tokGo tokens varlen maxvar cs done cur

/-- `tokenize`; `*nstr` is the length of the result. -/
def tokenize (s tokens : List Char) (varlen maxvar : Nat) : Except TokErr (List (List Char)) :=
  if s = [] then .error .empty else tokGo tokens varlen maxvar s [] []

end Verif.Tokenize
