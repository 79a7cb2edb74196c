/-
Specification for split_ncvars.pl: what an output file holds, and which variables belong to a variable.
-/
import Verif.Model.SplitVars
namespace Verif.Spec.SplitVars
open Verif.SplitVars

variable {α : Type}

/-- The records of variable `x` in the output file of variable `v` and tile `t` (none if there is no such file) -/
def held (w : World α) (v t x : String) : List α :=
  match w.out ⟨v, t, ""⟩ with
  | none => []
  | some f => match f.get x with
    | some (_, l) => l
    | none => []

/-- `a` is an attribute of the variable `n` of the file, and `ws` are the words of its text -/
def HasAtt (h : Head) (n a : String) (ws : List String) : Prop :=
  ws ≠ [] ∧ ∃ v, h.find n = some v ∧ ∃ e, v.atts.find? (fun e => e.1 = a) = some e ∧ e.2 = ws

/-- `n` is a variable of the file along the dimension `d` -/
def Along (h : Head) (n d : String) : Prop := ∃ v, h.find n = some v ∧ d ∈ v.dims

/-- The variable has the time axis -/
def Record (h : Head) (n : String) : Prop := ∃ t, h.unlimited = some t ∧ Along h n t

/-- `b` is an array in the file that holds the bounds or the edges of `d` -/
def BoundsOf (h : Head) (d b : String) : Prop :=
  (HasAtt h d "bounds" [b] ∨ HasAtt h d "edges" [b]) ∧ ∃ e, Along h b e

/-- The word is a label: it ends with a colon -/
def Label (w : String) : Prop := w.toList.getLast? = some ':'

/-- In a list of labels, each followed by a name, `t` is one of the names; other words are passed over -/
inductive Term : List String → String → Prop
  | here {w x : String} {l : List String} : Label w → Term (w :: x :: l) x
  | later {w x t : String} {l : List String} : Label w → Term l t → Term (w :: x :: l) t
  | pass {w t : String} {l : List String} : ¬ Label w → Term l t → Term (w :: l) t

/-- `t` is mentioned in the `formula_terms` of `d` -/
def TermOf (h : Head) (d t : String) : Prop := ∃ ws, HasAtt h d "formula_terms" ws ∧ Term ws t

/-- What has to be copied once with variable `n`: the arrays with bounds of its dimensions other than time, the variables in its attribute
`coordinates` with their bounds, and the static terms of formulas of its dimensions or of their bounds -/
inductive Once (h : Head) (n : String) : String → Prop
  | bounds {d b : String} : Along h n d → h.unlimited ≠ some d → BoundsOf h d b → Once h n b
  | coordinate {ws : List String} {c : String} : HasAtt h n "coordinates" ws → c ∈ ws → h.has c → Once h n c
  | coordinateBounds {ws : List String} {c b : String} : HasAtt h n "coordinates" ws → c ∈ ws → h.has c → BoundsOf h c b → Once h n b
  | term {d t : String} : Along h n d → (TermOf h d t ∨ ∃ b, HasAtt h d "bounds" [b] ∧ TermOf h b t) → (∃ e, Along h t e) → ¬ Record h t →
      Once h n t

/-- What has to be copied with the records: the variables that tell about averages (unless the output is for CMIP) and the bounds of time -/
inductive Always (cmip : Bool) (h : Head) (n : String) : String → Prop
  | average {ws : List String} {a : String} : cmip = false → HasAtt h n "time_avg_info" ws → a ∈ ws → Always cmip h n a
  | bounds {t b : String} : h.unlimited = some t → HasAtt h t "bounds" [b] → Always cmip h n b
  | climatology {t b : String} : h.unlimited = some t → HasAtt h t "climatology" [b] → Always cmip h n b

/-- The variable holds the bounds of time -/
def TimeBounds (h : Head) (n : String) : Prop :=
  ∃ t, h.unlimited = some t ∧ (HasAtt h t "bounds" [n] ∨ HasAtt h t "climatology" [n])

/-- The arrays with geographic coordinates -/
def Geographic (h : Head) (c : String) : Prop := c ∈ ["geolat", "geolon", "GEOLAT", "GEOLON"] ∧ ∃ d, Along h c d

/-- What is only named in the output of variable `n`: the cell measures, and those terms of formulas that have the time axis or are missing -/
inductive External (h : Head) (n : String) : String → Prop
  | measure {ws : List String} {d x : String} : Along h n d → HasAtt h n "cell_measures" ws → x ∈ ws → x.toList.getLast? ≠ some ':' →
      External h n x
  | term {d t : String} : Along h n d → (TermOf h d t ∨ ∃ b, HasAtt h d "bounds" [b] ∧ TermOf h b t) →
      (Record h t ∨ ¬ ∃ e, Along h t e) → External h n t

/-- What one input does to the output file of variable `n`: a new file gets exactly the variables that belong to it, with the values of the
input; an old file keeps its variables, and gets the records of the input for all variables that have to be copied with the records -/
structure Added (cmip : Bool) (f : Input α) (n : String) (before after : Option (Out α)) : Prop where
  fresh : before = none → ∃ g, after = some g ∧
    (∀ x, x ∈ g.vars.map (·.1) ↔ Geographic f.head x ∨ x = n ∨ Once f.head n x ∨ Always cmip f.head n x) ∧
    (∀ x ∈ g.vars.map (·.1), ∃ r, g.get x = some (r, f.data x) ∧ (r = true ↔ Record f.head x)) ∧
    (∀ x, x ∈ g.external ↔ External f.head n x)
  old : ∀ a, before = some a → ∃ g, after = some g ∧ g.external = a.external ∧ g.vars.map (·.1) = a.vars.map (·.1) ∧
    (∀ x l, x = n ∨ Always cmip f.head n x → a.get x = some (true, l) → g.get x = some (true, l ++ f.data x)) ∧
    (∀ x l, a.get x = some (false, l) → g.get x = some (false, l))

/-- A file which `split_ncvars.pl` can process for variable `n`: it can be read, has a plain name, a time axis and this variable along it,
which does not hold bounds of time; and all variables it refers to for averages and bounds of time are there. -/
structure Fit (cmip : Bool) (f : Input α) (n : String) : Prop where
  readable : f.readable = true
  plain : f.ext = ""
  record : Record f.head n
  notBounds : ¬ TimeBounds f.head n
  here : ∀ x, Always cmip f.head n x → f.head.has x

/-- The plain mode: one file for each variable, with time axis, without the surface pressure -/
structure Plain (o : Opts) : Prop where
  notStatic : o.static = false
  noPs : o.ps = false
  many : o.onefile = false

end Verif.Spec.SplitVars
