import Mathlib.Logic.Function.Basic
/-
Remap files over several runs of fregrid: /repo/src/fre-grid/fregrid_util.c `set_remap_file` 1946-1998 (names of the files, READ and WRITE),
/repo/src/fre-grid/conserve_interp.c `setup_conserve_interp` 62-124 (reading) and 368-445 (writing), /repo/src/fre-grid/bilinear_interp.c
`setup_bilinear_interp` 110-127 (reading) and 407-427 (writing), /repo/src/fre-grid/fregrid.c 619-625, 750, 812, 958-1003 (main).

Simplifications: what is computed for a tile is a function of the pair of grids, given as a parameter; the tile belongs to one processor (C47 has the
distribution over processors and the fields of a file); a file is created, then completed: a run that ends in between leaves the file cut; reading such a file is
an undefined outcome.
-/
namespace Verif.RemapRuns

/-- /repo/lib/libfrencutils/constant.h 25: size of the buffers for names. -/
def STRING : Nat := 255

abbrev Name := List Char

/-- How a call can end without a result: with a message, or undefined (memory outside of an array is read or written, or data of a cut file are used). -/
inductive Err
  | refused
  | undefined
  deriving DecidableEq

/-- Methods of interpolation as far as the files differ. -/
inductive Method
  | order1
  | order2
  | bilinear
  deriving DecidableEq

/-- What the run uses for a tile: memory as it comes from `malloc` (fregrid.c 750), exchange cells (with distances for second order), or bilinear weights. -/
inductive Use (B D W : Type)
  | unset
  | cells (b : List B) (d : Option (List D))
  | weights (w : W)

/-- A remap file: created but not completed, exchange cells (conserve_interp.c 382-441), or weights with the size of the grid (bilinear_interp.c 412-426). -/
inductive File (B D W : Type)
  | cut
  | cells (b : List B) (d : Option (List D))
  | weights (size : Nat × Nat) (w : W)

/-- What belongs to a pair of an input and an output grid `G`: names of the output tiles, exchange cells and their distances for each output tile, weights and their
size for the bilinear method. -/
structure Grids (G B D W : Type) where
  tiles : G → List Name
  base : G → Nat → List B
  dist : G → Nat → List D
  weights : G → W
  size : G → Nat × Nat

/-- Arguments of a run: `--remap_file` and whether `--input_file` is missing (fregrid.c 619-624). -/
structure Run (G : Type) where
  grid : G
  method : Method
  remap : Option Name
  weightsOnly : Bool

/-- fregrid_util.c 1961-1968: the name without `.nc`. For names of less than three characters the comparison begins before the string. -/
def stem (name : Name) : Except Err Name :=
  if STRING ≤ name.length then .error .refused
  else if name.length < 3 then .error .undefined
  else if name.drop (name.length - 3) = ['.', 'n', 'c'] then .ok (name.take (name.length - 3))
  else .ok name

variable {G B D W : Type} (c : Grids G B D W)

/-- fregrid_util.c 1977-1987: a file for each tile. The first tile with a name too long ends the program. With one tile there is no check before `sprintf` into
`remap_file[STRING]`. -/
def names (g : G) (name : Name) : Except Err (List Name) :=
  match stem name with
  | .error e => .error e
  | .ok s =>
    if 1 < (c.tiles g).length then
      if (c.tiles g).any fun t => STRING - 5 < s.length + t.length then .error .refused
      else .ok ((c.tiles g).map fun t => s ++ '.' :: t ++ ['.', 'n', 'c'])
    else if STRING < s.length + 4 then .error .undefined
    else .ok ((c.tiles g).map fun _ => s ++ ['.', 'n', 'c'])

/-- conserve_interp.c 126-367 and bilinear_interp.c 128-405: what is computed for tile `n`. -/
def fresh (m : Method) (g : G) (n : Nat) : Use B D W :=
  match m with
  | .order1 => .cells (c.base g n) none
  | .order2 => .cells (c.base g n) (some (c.dist g n))
  | .bilinear => .weights (c.weights g)

/-- What is written for tile `n`: nothing if there are no exchange cells (conserve_interp.c 374). -/
def fileOf (m : Method) (g : G) (n : Nat) : Option (File B D W) :=
  match m with
  | .order1 => if (c.base g n).isEmpty then none else some (.cells (c.base g n) none)
  | .order2 => if (c.base g n).isEmpty then none else some (.cells (c.base g n) (some (c.dist g n)))
  | .bilinear => some (.weights (c.size g) (c.weights g))

/-- conserve_interp.c 68-119, bilinear_interp.c 115-124: reading a file. A dimension or variable that is not in the file ends the program. Nothing in a file of
exchange cells is compared with the grids. -/
def readFile (m : Method) (g : G) : File B D W → Except Err (Use B D W)
  | .cut => .error .undefined
  | .cells b d =>
    match m, d with
    | .order1, _ => .ok (.cells b none)
    | .order2, some d => .ok (.cells b (some d))
    | .order2, none => .error .refused
    | .bilinear, _ => .error .refused
  | .weights s w =>
    match m with
    | .bilinear => if s = c.size g then .ok (.weights w) else .error .refused
    | _ => .error .refused

/-- Files by name. -/
abbrev Disk (B D W : Type) := Name → Option (File B D W)

/-- The tiles one after the other; the first that fails ends the program. -/
def collect {α : Type} (f : Nat → Except Err α) : Nat → Except Err (List α)
  | 0 => .ok []
  | n + 1 =>
    match collect f n with
    | .error e => .error e
    | .ok l =>
      match f n with
      | .error e => .error e
      | .ok a => .ok (l ++ [a])

/-- fregrid_util.c 1989-1992: READ is set if the file of any tile is there. -/
def anyFile (fs : Disk B D W) (ns : List Name) : Bool := ns.any fun f => (fs f).isSome

/-- conserve_interp.c 63-64: with READ only the tiles that have a file get exchange cells. -/
def readTile (fs : Disk B D W) (m : Method) (g : G) (ns : List Name) (n : Nat) : Except Err (Use B D W) :=
  match fs (ns.getD n []) with
  | none => .ok .unset
  | some file => readFile c m g file

/-- The changes of files for a tile: the file is created, then completed. -/
def tileWrites (m : Method) (g : G) (ns : List Name) (n : Nat) : List (Name × File B D W) :=
  match fileOf c m g n with
  | none => []
  | some file => [(ns.getD n [], .cut), (ns.getD n [], file)]

/-- The changes for the tiles one after the other. -/
def writes (m : Method) (g : G) (ns : List Name) : List (Name × File B D W) :=
  (List.range ns.length).flatMap (tileWrites c m g ns)

/-- A run: the changes of files it makes on its way, and what it uses for the tiles. -/
def perform (fs : Disk B D W) (r : Run G) : List (Name × File B D W) × Except Err (List (Use B D W)) :=
  match r.remap with
  | none => ([], if r.weightsOnly then .error .refused else collect (fun n => .ok (fresh c r.method r.grid n)) (c.tiles r.grid).length)
  | some name =>
    match names c r.grid name with
    | .error e => ([], .error e)
    | .ok ns =>
      if !r.weightsOnly && anyFile fs ns then ([], collect (readTile c fs r.method r.grid ns) ns.length)
      else (writes c r.method r.grid ns, collect (fun n => .ok (fresh c r.method r.grid n)) ns.length)

/-- The files after some changes. -/
def apply (fs : Disk B D W) : List (Name × File B D W) → Disk B D W
  | [] => fs
  | w :: ws => apply (fun f => if f = w.1 then some w.2 else fs f) ws

/-- The files after a run that is killed after `k` changes. -/
def killed (fs : Disk B D W) (r : Run G) (k : Nat) : Disk B D W := apply fs ((perform c fs r).1.take k)

/-- The files after runs that go on to their end. -/
def after (fs : Disk B D W) : List (Run G) → Disk B D W
  | [] => fs
  | r :: h => after (apply fs (perform c fs r).1) h

end Verif.RemapRuns
