import Mathlib.Data.List.Basic
/-
The command line in the attribute `history`, and the attribute `great_circle_algorithm`: /repo/lib/libfrencutils/tool_util.c `print_provenance_gv_gca` 780-808,
/repo/lib/libfrencutils/mpp_io.c `get_great_circle_algorithm` 1500-1524, and the same lines in the programs (see `size`).

Simplifications: the words are those that `getopt_long` leaves in `argv`, where words that are no options come last; the other attributes (versions, time, host) are left out.
-/
namespace Verif.Provenance

/-- The program stops with a message; or it uses memory outside an array. -/
inductive Err
  | refused
  | undefined
  deriving DecidableEq

abbrev Word := List Char

/-- The programs that copy the whole command line. -/
inductive Program
  | coupler
  | hgrid
  | regional
  | remapFile
  | topog
  | remapLand
  | river
  | solo
  | landDomain
  | vgrid
  | runoff
  | quick
  deriving DecidableEq

/-- Length of `history`: make_coupler_mosaic.c 371, make_hgrid.c 560, make_regional_mosaic.c 79, make_remap_file.c 121, make_topog.c 664, remap_land.c 242, river_regrid.c 176,
make_solo_mosaic.c 89, make_land_domain.c 290, make_vgrid.c 146, runoff_regrid.c 144 (MAXATT), make_quick_mosaic.c 120. -/
def size : Program → Nat
  | .coupler => 512
  | .hgrid => 2560
  | .regional => 512
  | .remapFile => 512
  | .topog => 512
  | .remapLand => 1280
  | .river => 1024
  | .solo => 512
  | .landDomain => 1280
  | .vgrid => 256
  | .runoff => 4096
  | .quick => 512

/-- `strcat(history, w)` in an array of `n` characters; the text needs one more for the end. -/
def cat (n : Nat) (s w : Word) : Except Err Word := if n < s.length + w.length + 1 then .error .undefined else .ok (s ++ w)

/-- make_topog.c 673-676 and the same in the other programs. -/
def more (n : Nat) : Word → List Word → Except Err Word
  | s, [] => .ok s
  | s, w :: ws => do
    let s ← cat n s [' ']
    let s ← cat n s w
    more n s ws

/-- make_topog.c 671-676: `strcpy(history, argv[0])` and the words after it. -/
def history (n : Nat) : List Word → Except Err Word
  | [] => .error .undefined
  | w :: ws => do
    let s ← cat n [] w
    more n s ws

/-- globals.h 26, 28 -/
def MAXATT : Nat := 4096
def MAXENTRY : Nat := 512

/-- fregrid.c 687 -/
def marker : Word := "(**please see the field list in this file**)".toList

/-- fregrid.c 685 -/
def lists : List Word := ["--scalar_field".toList, "--u_field".toList, "--v_field".toList]

/-- fregrid.c 681-691, fregrid_gpu.c 639-649; `p` is the word before. -/
def fregridMore : Word → Word → List Word → Except Err Word
  | _, s, [] => .ok s
  | p, s, w :: ws => do
    let s ← cat MAXATT s [' ']
    if MAXENTRY < w.length then
      if p ∈ lists then do
        let s ← cat MAXATT s marker
        fregridMore w s ws
      else .error .refused
    else do
      let s ← cat MAXATT s w
      fregridMore w s ws

/-- fregrid.c 679-691 -/
def fregridHistory : List Word → Except Err Word
  | [] => .error .undefined
  | w :: ws => do
    let s ← cat MAXATT [] w
    fregridMore w s ws

/-- Global attributes of a file: name and text. -/
abbrev Atts := List (Word × Word)

/-- tool_util.c 780-808. `v`: the attributes `grid_version`, `code_release_version`, `git_hash`, `creationtime` and `hostname` are left out. -/
def provenance (hist : Option Word) (gca : Bool) : Atts :=
  (if gca then [("great_circle_algorithm".toList, "TRUE".toList)] else []) ++
    (match hist with
      | none => []
      | some h => [("history".toList, h)])

/-- mpp_io.c 1500-1524 -/
def readGca (a : Atts) : Except Err Bool :=
  match a.lookup "great_circle_algorithm".toList with
  | none => .ok false
  | some v => if v = "TRUE".toList then .ok true else if v = "FALSE".toList then .ok false else .error .refused

end Verif.Provenance
