import Verif.Model.BlockSize
/-
Options of nests of make_hgrid: /repo/src/make-hgrid/make_hgrid.c `parse_comma_list` 430-452, options 707-732, checks 964-981, sizes of tiles 1010-1039 and memory 1093-1101.

Simplifications: a text is a list of characters; `atoi` as in Model/BlockSize.lean, for numbers without sign or space in front and without overflow; make_hgrid is one process (the root); `MAX_NESTS` is the length of
the arrays, 128. `broken`: an array is read beyond its end.
-/
namespace Verif.NestOptions

inductive Opt where
  | refine | parent | istart | iend | jstart | jend
deriving DecidableEq

/-- `strtok` with ","; first: the token so far -/
def tokens (cur : List Char) : List Char → List (List Char)
  | [] => if cur = [] then [] else [cur]
  | c :: cs => if c = ',' then (if cur = [] then tokens [] cs else cur :: tokens [] cs) else tokens (cur ++ [c]) cs

/-- 430-452: the array afterwards -/
def parse (s : List Char) (arr : List Int) : List Int :=
  let v := ((tokens [] s).map fun t => (BlockSize.atoi 0 t : Int)).take arr.length
  match arr.drop v.length with
  | [] => v
  | x :: rest => v ++ x :: rest.map fun _ => 0

abbrev Arrays := Opt → List Int

/-- 536-541 -/
def zeros : Arrays := fun _ => List.replicate 128 0

/-- 714-731 -/
def step (a : Arrays) (o : Opt × List Char) : Arrays := fun p => if p = o.1 then parse o.2 (a p) else a p

def readOptions (os : List (Opt × List Char)) : Arrays := os.foldl step zeros

inductive Result where
  /-- sizes of the tiles after the first six -/
  | ok (sizes : List (Int × Int))
  | error
  | broken
deriving DecidableEq

/-- 965-980: nest `n` and `k - 1` more; `some` is the number of tiles -/
def check (halo : Int) (a : Arrays) : Nat → Nat → Nat → Except Result Nat
  | 0, _, ntiles => .ok ntiles
  | k + 1, n, ntiles =>
    match (a .refine)[n]?, (a .parent)[n]?, (a .istart)[n]?, (a .iend)[n]?, (a .jstart)[n]?, (a .jend)[n]? with
    | some r, some p, some is, some ie, some js, some je =>
      if r = 0 then .error .error
      else if p = 0 then check halo a k (n + 1) ntiles
      else if is = 0 ∨ ie = 0 ∨ js = 0 ∨ je = 0 ∨ halo = 0 then .error .error
      else check halo a k (n + 1) (ntiles + 1)
    | _, _, _, _, _, _ => .error .broken

/-- 1037-1038: size of tile `6 + n` -/
def size (a : Arrays) (n : Nat) : Int × Int :=
  (((a .iend).getD n 0 - (a .istart).getD n 0 + 1) * (a .refine).getD n 0, ((a .jend).getD n 0 - (a .jstart).getD n 0 + 1) * (a .refine).getD n 0)

/-- 964-1101; the memory of `nests` tiles is added, unless there is one with parent 0. -/
def nestSizes (os : List (Opt × List Char)) (nests : Nat) (halo : Int) : Result :=
  let a := readOptions os
  match check halo a nests 0 6 with
  | .error r => r
  | .ok ntiles =>
    if ¬(nests = 1 ∧ (a .parent)[0]? = some 0) ∧ ntiles < 6 + nests then .broken
    else .ok ((List.range (ntiles - 6)).map (size a))

end Verif.NestOptions
