import Mathlib.Data.List.Basic
/-
Model of the attributes of fields that choose the way of remapping in fregrid: `cell_methods`, `cell_measures` with `associated_files`, `interp_method`.

Source: /repo/src/fre-grid/fregrid_util.c `get_input_metadata` 841-850, 963-1199, 1403-1418; `parse_string` 1425-1462;
/repo/src/fre-grid/fregrid.c 711-712, 754, 779-782, 907, 929-952.

Simplifications: strings are lists of characters (no NUL), of any length. Existence of files, variables and attributes is given by functions. Values of areas are left
out. `file_id` is of type `char` (891), the numbers of files are not modelled; see DESIGN.md.
-/
namespace Verif.FieldAtts

abbrev Str := List Char

/-- `strstr`: what follows the first place where `key` is found. -/
def after (key : Str) : Str → Option Str
  | [] => if key = [] then some [] else none
  | c :: s => if key.isPrefixOf (c :: s) then some ((c :: s).drop key.length) else after key s

/-- `parse_string`: `none` not found (0), `some none` nothing behind it (-1), otherwise the word behind it (1). -/
def parse (s key : Str) : Option (Option Str) :=
  match after key s with
  | none => none
  | some r =>
    match r.dropWhile (· = ' ') with
    | [] => some none
    | w => some (some (w.takeWhile (· ≠ ' ')))

inductive Err
  | empty | method | noList | notListed | noFile | interp | mixed | axes | dims | tiles | clip
deriving DecidableEq, Repr

inductive Method
  | mean | sum
deriving DecidableEq, Repr

/-- 963-991 -/
def cellMethods : Option Str → Except Err Method
  | none => .ok .mean
  | some att =>
    match parse att "area:".toList with
    | none => .ok .mean
    | some none => .error .empty
    | some (some w) => if w = "mean".toList then .ok .mean else if w = "sum".toList then .ok .sum else .error .method

/-- 993-1026: use volume?, name of the variable. -/
def cellMeasures : Option Str → Except Err (Option (Bool × Str))
  | none => .ok none
  | some att =>
    match parse att "volume:".toList with
    | some none => .error .empty
    | some (some w) => .ok (some (true, w))
    | none =>
      match parse att "area:".toList with
      | some none => .error .empty
      | some (some w) => .ok (some (false, w))
      | none => .ok none

/-- What is in the files: variables of the field's file, its list `associated_files`, files. -/
structure Files where
  own : Str
  hasVar : Str → Bool
  list : Option Str
  fileExists : Str → Bool

/-- 1078-1083: the name of tile `n`, from 0, of a file name. -/
def tileName (f : Str) (n : Nat) : Str :=
  (if ".nc".toList.isSuffixOf f then f.take (f.length - 3) else f) ++ ".tile".toList ++ (Nat.repr (n + 1)).toList ++ ".nc".toList

/-- 1033-1094: the file with the measure `name` for tile `n`. -/
def measureFile (fs : Files) (dir : Option Str) (ntiles n : Nat) (name : Str) : Except Err Str :=
  if fs.hasVar name then .ok fs.own
  else match fs.list with
    | none => .error .noList
    | some att =>
      match parse att (name ++ [':']) with
      | none => .error .notListed
      | some none => .error .empty
      | some (some w) =>
        let f := match dir with | some d => d ++ ['/'] ++ w | none => w
        if ntiles = 1 then (if fs.fileExists f then .ok f else .error .noFile)
        else if fs.fileExists (tileName f n) then .ok (tileName f n)
        else if fs.fileExists f then .ok f else .error .noFile

/-- 1117-1165: has the measure, with dimensions of kinds `ks`, times, a fourth axis, levels? -/
def measureAxes (ks : List Char) : Except Err (Bool × Bool × Bool) :=
  let t := ks.head? = some 'T'
  let k := if 2 < ks.length then (if t then ks[1]? else ks.head?) else none
  let n := k = some 'N'
  let z := k = some 'Z'
  if (n ∨ z) ∧ (ks.length = 3 ∧ t ∨ ks.length = 4 ∧ ¬ t) then .error .axes
  else if 4 < ks.length then .error .dims
  else .ok (t, n, z)

/-- `get_input_data` 2155-2161: `start2` for the measure. `z` is `level_z`, -1 with `--extrapolate`. -/
def measureStart (fl : Bool × Bool × Bool) (t n z : Int) : List Int :=
  (if fl.1 then [t] else []) ++ (if fl.2.1 then [n] else []) ++ (if fl.2.2 then [z] else []) ++ [0, 0]

inductive Interp
  | order1 | order2 | bilinear
deriving DecidableEq, Repr

/-- 1183-1201: the way of one field. `c` is that of the command line. -/
def interpOf (c : Interp) (monotonic : Bool) : Option Str → Except Err Interp
  | none => .ok c
  | some att =>
    if monotonic then .ok c
    else if att = "conserve_order1".toList then .ok .order1
    else if att = "conserve_order2".toList then .ok .order2
    else if att = "bilinear".toList then .ok .bilinear
    else .error .interp

/-- The ways of all fields, with the check 1413-1418: `use_bilinear`, `use_conserve` are set by the command line and by attributes. -/
def interps (c : Interp) (monotonic : Bool) (atts : List (Option Str)) : Except Err (List Interp) :=
  match atts.mapM (interpOf c monotonic) with
  | .error e => .error e
  | .ok l => if (c :: l).any (· == .bilinear) && (c :: l).any (· != .bilinear) then .error .mixed else .ok l

/-- State of `main` before the weights are made: ways of the fields, way of `opcode`, are the lengths and vectors for gradients there (`get_input_grid` 330-354)? -/
structure Run where
  ways : List Interp
  final : Interp
  metric : Bool
deriving DecidableEq, Repr

/-- fregrid.c: checks 711-712 and 779-782, `get_input_grid` 754, attributes 907, change of `opcode` 929-952. -/
def run (c : Interp) (monotonic : Bool) (ntiles : Nat) (greatCircle : Bool) (atts : List (Option Str)) : Except Err Run :=
  if ntiles ≠ 6 ∧ c = .order2 then .error .tiles
  else if greatCircle = true ∧ c ≠ .order1 then .error .clip
  else match interps c monotonic atts with
    | .error e => .error e
    | .ok l => .ok ⟨l, if c = .order1 ∧ l.any (· == .order2) then .order2 else c, c = .order2⟩

end Verif.FieldAtts
