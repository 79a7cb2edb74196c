import Verif.Model.GridBound
import Verif.Model.GridLegacy
import Verif.Model.Provenance
import Verif.Model.ScatterOptions
/-
make_vgrid: /repo/src/make-vgrid/make_vgrid.c 133-258 (main), /repo/src/make-vgrid/create_vgrid.c 47-65, /repo/lib/libfrencutils/tool_util.c `get_int_entry` 75-88,
`get_double_entry` 90-102, MAX_GRID_LENGTH from tool_util.h 28.

Simplifications: an option is given at most once; `double` is the real numbers, and `atof` is a parameter; a value that is used without having been set counts as undefined. The
lengths are those of the arrays (137-146).
-/
namespace Verif.VgridMain
open Provenance (Err Word)

/-- The options of the command line. -/
structure Args where
  nbnds : Option Word
  bnds : Option Word
  nz : Option Word
  dbnds : Option Word
  stretch : Option Word
  name : Option Word
  center : Option Word

/-- `strtok(line, ", ")` until NULL; `cur` is the word read so far. -/
def tokens : Word → Word → List Word
  | cur, [] => if cur = [] then [] else [cur]
  | cur, c :: cs => if c = ',' ∨ c = ' ' then (if cur = [] then tokens [] cs else cur :: tokens [] cs) else tokens (cur ++ [c]) cs

/-- `strcpy(entry, optarg)` with `entry[512]`, and the words of `get_int_entry`, `get_double_entry` in an array of `cap` numbers (174-185). -/
def entries (cap : Nat) : Option Word → Except Err (List Word)
  | none => .ok []
  | some w => if 512 < w.length + 1 then .error .undefined else if cap < (tokens [] w).length then .error .undefined else .ok (tokens [] w)

/-- `strcpy` of an option into an array of `n` characters (189-193). -/
def copied (n : Nat) (o : Option Word) (dflt : Word) : Except Err Word :=
  match o with
  | none => .ok dflt
  | some w => if n < w.length + 1 then .error .undefined else .ok w

/-- 137-146 -/
def MAXBOUNDS : Nat := 100

/-- Failures of the routines for the grid: messages, or undefined. -/
def gridErr : GridLegacy.Err → Err
  | .undef => .undefined
  | _ => .refused

/-- 217-222 with the new algorithm: an array of `nk + 1` numbers. -/
noncomputable def spline (nb : Nat) (bnds : Nat → ℝ) (nz : Nat → Int) (center : Word) : Except Err (List ℝ) :=
  match GridBound.computeGridBound nb bnds nz (String.ofList center) with
  | .error (.spline .oob) => .error .undefined
  | .error _ => .error .refused
  | .ok g => if (g.length : Int) = ((List.range (nb - 1)).map nz).sum + 1 then .ok g else .error .undefined

/-- 213-222 with the legacy algorithm: an array of MAX_GRID_LENGTH + 1 numbers. -/
noncomputable def legacy (nb : Nat) (bnds dbnds : Nat → ℝ) (stretch : ℝ) (center : Word) : Except Err (List ℝ) :=
  match GridLegacy.computeGridBoundLegacy 5000 nb bnds dbnds stretch (String.ofList center) with
  | .error e => .error (gridErr e)
  | .ok g => if 10001 < g.length then .error .undefined else .ok g

/-- 200-222: the checks and the grid. `bs`, `zs`, `ds` are the words of the lists; `given`: the option `--dbnds` was given, otherwise `n3` and `dbnds` are not set. -/
noncomputable def grid (atof : Word → ℝ) (nbnds : Int) (bs zs ds : List Word) (given : Bool) (stretch : ℝ) (center : Word) : Except Err (List ℝ) :=
  if nbnds < 2 then .error .refused
  else if nbnds ≠ bs.length then .error .refused
  else if nbnds - 1 = zs.length then spline nbnds.toNat (fun i => atof (bs.getD i [])) (fun i => ScatterOptions.atoi (zs.getD i [])) center
  else if given = false then .error .undefined
  else if nbnds = ds.length then legacy nbnds.toNat (fun i => atof (bs.getD i [])) (fun i => atof (ds.getD i [])) stretch center
  else .error .refused

/-- The file: name, numbers and history. -/
structure File where
  name : Word
  zeta : List ℝ
  history : Word

/-- 133-258: `words` is the command line. -/
noncomputable def main (atof : Word → ℝ) (words : List Word) (a : Args) : Except Err File := do
  let bs ← entries MAXBOUNDS a.bnds
  let zs ← entries (MAXBOUNDS - 1) a.nz
  let ds ← entries MAXBOUNDS a.dbnds
  let name ← copied 128 a.name "vertical_grid".toList
  let center ← copied 32 a.center "none".toList
  if words.length < 4 then .error .refused
  else do
    let z ← grid atof ((a.nbnds.map ScatterOptions.atoi).getD 0) bs zs ds a.dbnds.isSome ((a.stretch.map atof).getD 1) center
    let h ← Provenance.history 256 words
    if 128 < name.length + 3 + 1 then .error .undefined else .ok ⟨name ++ ".nc".toList, z, h⟩

end Verif.VgridMain
