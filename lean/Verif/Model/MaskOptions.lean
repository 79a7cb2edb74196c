import Verif.Model.BlockSize
import Mathlib.Data.Rat.Defs
import Mathlib.Algebra.Order.Ring.Rat
/-
Options of check_mask and the mask of the ocean: /repo/src/check-mask/check_mask.c 247-303 (options), 312-333 (open boundaries), 371-415 (kind of grid), `get_text_entry` 529-542,
`get_ocean_mask` 912-944; /repo/lib/libfrencutils/tool_util.c `get_int_entry` 75-88.

Simplifications: a text is a list of characters; `atoi` as in Model/BlockSize.lean with a minus sign in front, without overflow; numbers are rational. `broken`: an array is written beyond its end (4
boundaries, 10 characters of a direction, 2 numbers of a layout, 512 characters of an option).
-/
namespace Verif.MaskOptions

inductive Res (α : Type) where
  | ok (a : α)
  | error
  | broken

/-- `atoi` (C library) with a minus sign -/
def atoi : List Char → Int
  | [] => 0
  | c :: cs => if c = '-' then -(BlockSize.atoi 0 cs : Int) else BlockSize.atoi 0 (c :: cs)

/-- 264-266: the level; 931-936: the mask of a point -/
def wet (option : List Char) (depth : ℚ) : ℚ := if (atoi option : ℚ) < depth then 1 else 0

/-- `strtok` with ", "; first: the token so far -/
def words (cur : List Char) : List Char → List (List Char)
  | [] => if cur = [] then [] else [cur]
  | c :: cs => if c = ',' ∨ c = ' ' then (if cur = [] then words [] cs else cur :: words [] cs) else words (cur ++ [c]) cs

/-- `strcpy(entry, optarg)` and `get_int_entry` into an array of `cap` numbers -/
def ints (cap : Nat) (s : List Char) : Res (List Int) :=
  if 512 ≤ s.length then .broken
  else if cap < (words [] s).length then .broken
  else .ok ((words [] s).map atoi)

/-- 293-297 -/
def layout (s : List Char) : Res (List Int) :=
  match ints 2 s with
  | .ok l => if l.length = 2 then .ok l else .error
  | r => r

/-- 277-292: `--is`, `--ie`, `--js` and `--je` in turn -/
def readAll : List (List Char) → Res (List (List Int))
  | [] => .ok []
  | s :: ss =>
    match ints 4 s with
    | .ok l => match readAll ss with
      | .ok ls => .ok (l :: ls)
      | r => r
    | .error => .error
    | .broken => .broken

/-- 270-292, 312-317, 324-333: the boundaries, as indices from 0 -/
def boundaries (nobc : Nat) (direction : List Char) (opts : List (List Char)) : Res (List (List Char) × List (List Int)) :=
  let ds := words [] direction
  if 512 ≤ direction.length ∨ 4 < ds.length ∨ ds.any (fun d => decide (10 ≤ d.length)) = true then .broken
  else
    match readAll opts with
    | .ok ls =>
      if 4 < nobc then .error
      else if ds.length ≠ nobc then .error
      else if ls.any (fun l => decide (l.length ≠ nobc)) = true then .error
      else .ok (ds, ls.map fun l => l.map (· - 1))
    | .error => .error
    | .broken => .broken

/-- where the mask comes from -/
inductive Source where
  | wet | depth | area
deriving DecidableEq

/-- 371-415: fields of the grid file, whether there is a topography, and the model (`land`); `none`: error -/
def source (hasWet hasGridfiles hasLnd topog land : Bool) : Option Source :=
  let version := if hasWet then 1 else if hasGridfiles then 2 else if hasLnd then 3 else 0
  if version = 0 then none
  else if version = 2 ∧ topog = false then none
  else if land = true ∧ version ≠ 3 then none
  else if land = false ∧ version = 3 then none
  else if version = 3 then some .area
  else if version = 1 then some .wet else some .depth

end Verif.MaskOptions
