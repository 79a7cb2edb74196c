import Verif.Model.ListVars
/-
Specification for C97 and C98: which variables the manual of list_ncvars promises, and what ncexists is asked.
-/
namespace Verif.Spec.ListVars

open Verif.ListVars

/-- Endings of the names of variables made by averaging -/
def endings : List (List Char) := ["_T1".toList, "_T2".toList, "_DT".toList, "_NITEMS".toList]

/-- The rank without the record dimension -/
def rank (recdim : Int) (v : Var) : Nat := (v.dims.filter (· ≠ recdim)).length

/-- The option for a rank -/
def Opts.ranks (o : Opts) : Nat → Prop
  | 0 => o.var0d
  | 1 => o.var1d
  | 2 => o.var2d
  | 3 => o.var3d
  | 4 => o.var4d
  | _ => False

/-- The variables to be listed: numbers, not made by averaging, static or with the record dimension as asked for, and of a rank
asked for -/
def Wanted (recdim : Int) (o : Opts) (v : Var) : Prop :=
  v.isChar = false ∧ (∀ e ∈ endings, ¬ e <:+ v.name) ∧
    (if recdim ∈ v.dims then o.nonstatic else o.static) ∧ Opts.ranks o (rank recdim v)

/-- Variables for which list_ncvars is right whatever is in memory: with at least one dimension, rank at most 4, the record
dimension at most once and last, and a name which is not itself the end of one of the `endings` -/
structure Plain (recdim : Int) (v : Var) : Prop where
  dims : v.dims ≠ []
  last : recdim ∉ v.dims.dropLast
  rank : Spec.ListVars.rank recdim v ≤ 4
  name : ∀ e ∈ endings, v.name <:+ e → v.name = e

/-- The value of an option of ncexists which is used: the last one given -/
def Last (args : List Arg) (k : String → Arg) (x : String) : Prop := ∃ l r, args = l ++ k x :: r ∧ ∀ y, k y ∉ r

/-- The option is not given -/
def Absent (args : List Arg) (k : String → Arg) : Prop := ∀ y, k y ∉ args

end Verif.Spec.ListVars
