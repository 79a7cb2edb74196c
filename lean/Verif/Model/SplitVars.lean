import Mathlib.Logic.Function.Basic
import Mathlib.Data.List.Infix
/-
Model of src/split_ncvars/split_ncvars.pl.in.

The text of `ncdump -h` is replaced by the list of variables with dimensions and attributes (`Head`); names have letters, digits and
underscores only, so a regular expression made of a name matches this name. An attribute is the list of its words, split at the
separator that the script uses for it; global attributes are left out. The NetCDF operators are used by contract: `ncks` copies the
variables of a list and fails if one is missing, `ncrcat` joins the records of two files and keeps static variables of the first;
whether a call fails otherwise is a parameter. Not modelled: renaming of variables (height, plev, lev), the removal of `scalar_axis`, messages,
the log, `-C -6` of the single file, coordinate variables that `ncks` adds by itself.
-/
namespace Verif.SplitVars

structure Var where
  name : String
  dims : List String
  atts : List (String × List String)

/-- `$dump` -/
structure Head where
  unlimited : Option String
  vars : List Var

def Head.find (h : Head) (n : String) : Option Var := h.vars.find? fun v => v.name = n

/-- The first clause of l.227: the variable has dimensions -/
def Head.hasDims (h : Head) (n : String) : Bool :=
  match h.find n with
  | some v => v.dims ≠ []
  | none => false

/-- Both clauses of l.227 -/
def Head.has (h : Head) (n : String) : Bool := (h.find n).isSome

/-- `get_variable_att`, l.620-629; an attribute without text does not match -/
def att (h : Head) (n a : String) : Option (List String) :=
  match h.find n with
  | none => none
  | some v => ((v.atts.find? fun e => e.1 = a).map (·.2)).filter (· ≠ [])

/-- The value as the name of a variable -/
def attName (h : Head) (n a : String) : Option String :=
  match att h n a with
  | some [w] => some w
  | _ => none

/-- `get_variables_from_att`, l.642-651 -/
def fromAtt (h : Head) (n a : String) : List String := ((att h n a).getD []).filter fun w => h.has w

/-- `get_cell_measures`, l.655-666: the words that do not end with a colon -/
def cellMeasures (h : Head) (n : String) : List String :=
  if h.hasDims n then ((att h n "cell_measures").getD []).filter fun w => w.toList.getLast? ≠ some ':' else []

/-- `get_dimension_bounds`, l.690-702 -/
def dimBounds (h : Head) (d : String) : List String :=
  ((attName h d "bounds").toList ++ (attName h d "edges").toList).filter fun w => h.hasDims w

/-- `get_variable_bounds`, l.670-686 -/
def varBounds (h : Head) (n : String) : List String :=
  match h.find n with
  | none => []
  | some v => (v.dims.filter fun d => some d ≠ h.unlimited).flatMap (dimBounds h)

/-- The names that follow a word with a colon, l.725 and 734 -/
def terms : List String → List String
  | w :: x :: l => if w.toList.getLast? = some ':' then x :: terms l else terms (x :: l)
  | _ => []
termination_by l => l.length

/-- `push @allterms, $term if !grep ...`, l.726 and 735 -/
def addNew (l : List String) (t : String) : List String := if t ∈ l then l else l ++ [t]

/-- All formula terms of a variable, l.714-738 -/
def allTerms (h : Head) (n : String) : List String :=
  match h.find n with
  | none => []
  | some v => (v.dims.flatMap fun d =>
      terms ((att h d "formula_terms").getD []) ++
      (((attName h d "bounds").map fun b => terms ((att h b "formula_terms").getD [])).getD [])).foldl addNew []

/-- `is_static`, l.757-768 -/
def isStatic (h : Head) (n : String) : Bool :=
  match h.find n with
  | none => false
  | some v => v.dims ≠ [] ∧ ∀ t, h.unlimited = some t → t ∉ v.dims

/-- `get_formula_terms`, l.740-752: terms to be copied, and external ones -/
def fTerms (h : Head) (n : String) : List String := (allTerms h n).filter fun t => isStatic h t
@[inherit_doc fTerms] def xTerms (h : Head) (n : String) : List String := (allTerms h n).filter fun t => !isStatic h t

/-- `get_variable_dimensions`, l.580-598: the expression is `\t.*$var\(`, so the first variable counts whose name ends like this one; only
dimensions with an attribute `axis` or `cartesian_axis` -/
def axisDims (h : Head) (n : String) : List String :=
  match h.vars.find? fun v => v.dims ≠ [] ∧ n.toList <:+ v.name.toList with
  | none => []
  | some v => v.dims.filter fun d => (att h d "axis").isSome ∨ (att h d "cartesian_axis").isSome

/-- Options; `vars` is the list of `-v`, `archive` says that `dmget` exists and that `idir` begins with `/arch` and is not `.` -/
structure Opts where
  static : Bool
  cmip : Bool
  ps : Bool
  auto : Bool
  onefile : Bool
  vars : List String
  archive : Bool

/-- `$ps_includes{$var}`, l.252-262 -/
def psNeeded (o : Opts) (h : Head) (n : String) : Bool :=
  o.ps ∧ 4 ≤ (axisDims h n).length ∧ (axisDims h n).any fun d => "pfull".toList <:+: d.toList ∨ "phalf".toList <:+: d.toList

/-- `$CMIP`, l.246-249 -/
def isCmip (o : Opts) (h : Head) (n : String) : Bool := o.cmip ∨ (o.auto ∧ (att h n "standard_name").isSome)

/-- `@coords`, l.208-211 -/
def coords (h : Head) : List String := ["geolat", "geolon", "GEOLAT", "GEOLON"].filter fun c => h.hasDims c

/-- What is added when the output does not exist, l.272-307 -/
def firstTime (h : Head) (n : String) : List String :=
  varBounds h n ++ fromAtt h n "coordinates" ++ (fromAtt h n "coordinates").flatMap (dimBounds h) ++ fTerms h n

/-- What is added when there is a time axis, l.317-353: `none` for a variable with the bounds of time itself -/
def timeVars (o : Opts) (h : Head) (t n : String) : Option (List String) :=
  let avg := if isCmip o h n then [] else (att h n "time_avg_info").getD []
  let bnds := (attName h t "bounds").toList ++ (attName h t "climatology").toList
  if n ∈ bnds then none else some (avg ++ bnds)

/-- The same when there may be no time axis, l.317 -/
def extra (o : Opts) (h : Head) (time : Option String) (n : String) : Option (List String) :=
  match time with
  | none => some []
  | some t => timeVars o h t n

/-- A file written: its variables, with a flag for those that have the time axis, and `external_variables` -/
structure Out (α : Type) where
  vars : List (String × Bool × List α)
  external : List String

def Out.get {α : Type} (f : Out α) (n : String) : Option (Bool × List α) := (f.vars.find? fun e => e.1 = n).map (·.2)

/-- An input file. `readable` says that its name has `.nc` in it and that it can be read (l.167-168 and 185); `tile` and `ext` are taken from its name, `listed` is what `list_ncvars.sh` says. -/
structure Input (α : Type) where
  readable : Bool
  tile : String
  ext : String
  head : Head
  listed : List String
  data : String → List α

/-- The name `$odir/$var$tile.nc$ext` -/
structure Key where
  var : String
  tile : String
  ext : String
deriving DecidableEq

/-- The output directory, number of calls of `ncks` and `ncrcat` so far, `$ncstatus`, and the inputs that were removed -/
structure World (α : Type) where
  out : Key → Option (Out α)
  calls : Nat
  bad : Bool
  removed : List Nat

variable {α : Type}

/-- `ncks -v`: a variable is a record variable if it has the unlimited dimension -/
def ncks (f : Input α) (vlist : List String) : Option (List (String × Bool × List α)) :=
  if ∀ n ∈ vlist, f.head.has n then some (vlist.map fun n => (n, !isStatic f.head n && f.head.hasDims n, f.data n)) else none

/-- `ncrcat` of two files -/
def ncrcat (a : Out α) (b : List (String × Bool × List α)) : Out α :=
  { a with vars := a.vars.map fun e =>
      if e.2.1 then (e.1, true, e.2.2 ++ (((b.find? fun e' => e'.1 = e.1).map (·.2.2)).getD [])) else e }

/-- Extraction and output of one variable, l.359-490. `ok` says which calls of `ncks` and `ncrcat` succeed. `Except.error` is `die`. -/
def write (ok : Nat → Bool) (f : Input α) (time : Option String) (n : String) (vlist xlist : List String) (w : World α) :
    Except (World α) (World α) :=
  let tmp := if ok w.calls then ncks f vlist else none
  let w := { w with calls := w.calls + 1, bad := w.bad || tmp.isNone }
  let key : Key := ⟨n, f.tile, ""⟩
  match w.out key with
  | some a =>
    if time = none then .error w
    else
      match tmp with
      | some b =>
        if ok w.calls then .ok { w with out := Function.update w.out key (some (ncrcat a b)), calls := w.calls + 1 }
        else .ok { w with out := Function.update w.out key none, calls := w.calls + 1, bad := true }
      | none => .ok { w with out := Function.update w.out key none, calls := w.calls + 1, bad := true }
  | none =>
    match tmp with
    | some b => .ok { w with out := Function.update w.out ⟨n, f.tile, f.ext⟩ (some ⟨b, xlist⟩) }
    | none => .ok w

/-- `@vlist` and `@xlist` in the loop over the variables -/
structure Lists where
  v : List String
  x : List String

/-- One turn of the loop over the variables, l.221-495 -/
def oneVar (o : Opts) (ok : Nat → Bool) (f : Input α) (time : Option String) (s : Lists × World α) (n : String) :
    Except (World α) (Lists × World α) :=
  let h := f.head
  let (l, w) := s
  if !h.has n then .ok (l, w)
  else
    let l : Lists := ⟨l.v ++ [n], l.x ++ cellMeasures h n⟩
    let l : Lists := if (w.out ⟨n, f.tile, ""⟩).isNone then ⟨l.v ++ firstTime h n, l.x ++ xTerms h n⟩ else l
    let l : Lists := if psNeeded o h n then ⟨l.v ++ ["ps", "pk", "bk"], l.x⟩ else l
    match extra o h time n with
    | none => .ok (⟨coords h, []⟩, w)
    | some m =>
      let l : Lists := ⟨l.v ++ m, l.x⟩
      if o.onefile then .ok (l, w)
      else
        match write ok f time n l.v l.x w with
        | .error e => .error e
        | .ok w => .ok (⟨coords h, []⟩, w)

/-- The loop over the variables of a file -/
def varLoop (o : Opts) (ok : Nat → Bool) (f : Input α) (time : Option String) : List String → Lists × World α →
    Except (World α) (Lists × World α)
  | [], s => .ok s
  | n :: ns, s =>
    match oneVar o ok f time s n with
    | .error e => .error e
    | .ok s => varLoop o ok f time ns s

/-- The list of variables after a file, l.188-198: it is made from the first file that is read, if it is not given -/
def nextList (varlist : List String) (f : Input α) : List String := if varlist = [] then f.listed else varlist

/-- One file, l.166-532, without the single file. `k` is the number of the file; `unlink $file` is for the file in `idir`. -/
def oneFile (o : Opts) (ok : Nat → Bool) (s : List String × World α) (f : Input α) (k : Nat) : Except (World α) (List String × World α) :=
  if !f.readable then .ok s
  else
    let varlist := nextList s.1 f
    let time := if o.static then none else f.head.unlimited
    match varLoop o ok f time varlist (⟨coords f.head, []⟩, s.2) with
    | .error e => .error e
    | .ok (_, w) => .ok (varlist, if o.archive then { w with removed := w.removed ++ [k] } else w)

/-- The loop over the files -/
def fileLoop (o : Opts) (ok : Nat → Bool) : List (Input α) → Nat → List String × World α → Except (World α) (List String × World α)
  | [], _, s => .ok s
  | f :: fs, k, s =>
    match oneFile o ok s f k with
    | .error e => .error e
    | .ok s => fileLoop o ok fs (k + 1) s

/-- `exit 1 if $ncstatus`, l.534; `die` exits with another number -/
def exitOk (r : Except (World α) (List String × World α)) : Bool :=
  match r with
  | .error _ => false
  | .ok s => !s.2.bad

/-- The list of variables for the single file, l.503-506: `@vlist` after the loop -/
def oneFileList (o : Opts) (ok : Nat → Bool) (f : Input α) (varlist : List String) (w : World α) : Option (List String) :=
  match varLoop o ok f (if o.static then none else f.head.unlimited) varlist (⟨coords f.head, []⟩, w) with
  | .error _ => none
  | .ok (l, _) => some l.v

/-! ### Names -/

/-- The first place where the list begins with `pat`: the rest after it -/
def after (pat : List Char) : List Char → Option (List Char)
  | [] => if pat = [] then some [] else none
  | c :: l => if pat.isPrefixOf (c :: l) then some ((c :: l).drop pat.length) else after pat l

/-- `/\.nc(.*)/`, l.169 -/
def extOf (s : List Char) : Option (List Char) := after ".nc".toList s

/-- `/(\.tile\d)/`, l.170 -/
def tileOf : List Char → List Char
  | [] => []
  | c :: l =>
    if ".tile".toList.isPrefixOf (c :: l) then
      match (c :: l).drop 5 with
      | d :: _ => if d.isDigit then ".tile".toList ++ [d] else tileOf l
      | [] => tileOf l
    else tileOf l

/-! ### Attributes -/

/-- Attributes of one variable -/
abbrev Atts := List (String × String)

def Atts.get (l : Atts) (a : String) : Option String := (l.find? fun e => e.1 = a).map (·.2)

/-- The commands for `ncatted`: create, change, delete -/
inductive Cmd
  | create (a v : String)
  | change (a v : String)
  | delete (a : String)

/-- `ncatted`: create does nothing if the attribute exists, change nothing if it does not -/
def Cmd.run (l : Atts) : Cmd → Atts
  | .create a v => if (l.get a).isSome then l else l ++ [(a, v)]
  | .change a v => l.map fun e => if e.1 = a then (a, v) else e
  | .delete a => l.filter fun e => e.1 ≠ a

/-- The value as `get_variable_att` gives it: no text is no attribute -/
def Atts.text (l : Atts) (a : String) : Option String := (l.get a).filter (· ≠ "")

/-- `cleanup_dim_atts`, l.822-865; `lc` is Perl's function for small letters. In l.845 it is applied to `$cal`, which has no text there. -/
def cleanup (lc : String → String) (dim : String) (l : Atts) : List Cmd :=
  (match l.text "cartesian_axis" with
    | some c => (if c ≠ "N" ∧ (l.text "axis").isNone then [.create "axis" c] else []) ++ [.delete "cartesian_axis"]
    | none => []) ++
  (match l.text "calendar" with
    | some c => if c ≠ lc c then [.change "calendar" (lc c)] else []
    | none => if (l.text "calendar_type").isSome then [.create "calendar" (lc "")] else []) ++
  (if (l.text "calendar_type").isSome then [.delete "calendar_type"] else []) ++
  (match l.text "units" with
    | some u => if lc u = "none" then [.change "units" "1"] else []
    | none => []) ++
  ([("latitude", "lat"), ("longitude", "lon")].flatMap fun p =>
    if (dim = p.1 ∨ dim = p.2) ∧ (l.text "standard_name").isNone then [.create "standard_name" p.1] else [])

/-- The commands of one dimension on its attributes, l.488 -/
def cleaned (lc : String → String) (dim : String) (l : Atts) : Atts := (cleanup lc dim l).foldl Cmd.run l

end Verif.SplitVars
