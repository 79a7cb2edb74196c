import Mathlib.Algebra.Order.Field.Basic
import Mathlib.Algebra.Order.Floor.Defs
/-
Model of `src/timeavg/time_average.f90`: the averages over the time axis of each input file.
Numbers are elements of an ordered field instead of `real`; an array of one variable is a function on its points `P`
(the `where` constructs work point by point). One variable with a time axis is followed; its name, shape and metadata
are not modelled, nor the checks that all files agree.
-/
namespace Verif.TimeAvg
variable {K : Type*} [Field K] [LinearOrder K] [IsStrictOrderedRing K]
variable {P : Type*}

/-- One time level of an input file: its time, its time bounds (if the file has any) and the data. -/
structure Level (P K : Type*) where
  time : K
  b1 : K
  b2 : K
  data : P → K

/-- One input file: `hasBounds` is the flag `do_avg` of the file (279-286), and the time levels. -/
structure File (P K : Type*) where
  hasBounds : Bool
  levels : List (Level P K)

/-- `tavg` of one level (599-610). -/
def File.tavg (f : File P K) (l : Level P K) : K × K × K :=
  if f.hasBounds then (l.b1, l.b2, l.b2 - l.b1) else (1, 1, 1)

/-- `data_sum`, `data_wt` and `data_wt_max` of the variable. -/
structure Acc (P K : Type*) where
  sum : P → K
  wt : P → K
  wtMax : K

/-- 573-582: zero out sums. -/
def Acc.zero : Acc P K := ⟨fun _ => 0, fun _ => 0, 0⟩

/-- 701-721: one level with the weight `w` is added. `miss` is the missing value, if the variable has one
(`do_missval`). -/
def addLevel (useWt : Bool) (miss : Option K) (numtime : Nat) (w : K) (d : P → K) (a : Acc P K) : Acc P K :=
  if useWt then
    match miss with
    | some m =>
      ⟨fun p => if d p ≠ m then a.sum p + w * d p else a.sum p, fun p => if d p ≠ m then a.wt p + w else a.wt p,
        a.wtMax + w⟩
    | none => ⟨fun p => a.sum p + w * d p, fun p => a.wt p + w, a.wtMax + w⟩
  else if numtime = 1 then { a with sum := d }
  else { a with sum := fun p => a.sum p + w * d p, wtMax := a.wtMax + w }

/-- 595-723: the loop over the time axis. -/
def sums (useWt : Bool) (miss : Option K) (f : File P K) : Acc P K :=
  f.levels.foldl (fun a l => addLevel useWt miss f.levels.length (f.tavg l).2.2 l.data a) Acc.zero

/-- 824-846: the data that are written. `old` is the contents of `ddata` before. -/
def average (useWt : Bool) (miss : Option K) (frac small : K) (numtime : Nat) (a : Acc P K) (old : P → K) : P → K :=
  if useWt then
    let wtMin := max (min frac (1 - small)) 0 * a.wtMax
    match miss with
    | some m => fun p => if a.wt p > wtMin then a.sum p / a.wt p else m
    | none => fun p => if a.wt p > wtMin then a.sum p / a.wt p else old p
  else if numtime = 1 then a.sum
  else fun p => a.sum p / a.wtMax

/-- `use_data_wt` (alloc_variable_type 1178-1184), set when the first file is read. -/
def useDataWt (miss : Option K) (files : List (File P K)) : Bool :=
  match files with
  | [] => false
  | f :: _ => decide (f.levels.length > 1) && miss.isSome

/-- The loop over the files (142-...): one record for each file. -/
def timeAverage (miss : Option K) (frac small : K) (old : P → K) (files : List (File P K)) : List (P → K) :=
  files.map fun f => average (useDataWt miss files) miss frac small f.levels.length
    (sums (useDataWt miss files) miss f) old

/-- 848-856 and the conversion by netCDF, which drops the fraction: an integer variable. `sign(half,x)` is `-half` for
negative `x`. -/
def toInteger [FloorRing K] (miss : Option K) (x : K) : Int :=
  let shift (x : K) := x + if x < 0 then -(1 / 2) else 1 / 2
  let trunc (x : K) : Int := if x < 0 then ⌈x⌉ else ⌊x⌋
  match miss with
  | some m => if x ≠ m then trunc (shift x) else trunc x
  | none => trunc (shift x)

/-- `time_bounds(1:2)` (676-680, 733-739): the begin of the first and the end of the last level. -/
def File.timeBounds (f : File P K) : Option (K × K) :=
  match f.levels.head?, f.levels.getLast? with
  | some a, some b => some ((f.tavg a).1, (f.tavg b).2.1)
  | _, _ => none

/-- `time_out` (800-805): the time of the record. `climo`: climatological averages (228-241, 611-619); `fromBounds` is
`change_bounds_to_climo`. -/
def File.timeOut (useEnd climo fromBounds : Bool) (f : File P K) : Option K :=
  match f.timeBounds, f.levels.getLast? with
  | some (a, b), some l =>
    some (if useEnd then l.time
      else if climo then (if fromBounds then 1 / 2 * (l.b1 + l.b2) else l.time)
      else 1 / 2 * (a + b))
  | _, _ => none

end Verif.TimeAvg
