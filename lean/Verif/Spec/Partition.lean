/-
Specification vocabulary for decompositions of an index range. Independent of the models.
-/
namespace Verif.Spec

/-- `ext` is a list of non-empty closed intervals that follow each other without gap or overlap,
the first starting at `lo` and the last ending at `hi`. -/
def OrderedPartition (lo hi : Int) : List (Int × Int) → Prop
  | [] => lo = hi + 1
  | (b, e) :: t => b = lo ∧ b ≤ e ∧ OrderedPartition (e + 1) hi t

/-- The number of points of a closed interval. -/
def size (x : Int × Int) : Int := x.2 - x.1 + 1

/-- The mirror image of an interval inside `lo..hi`. -/
def mirror (lo hi : Int) (x : Int × Int) : Int × Int := (lo + hi - x.2, lo + hi - x.1)

end Verif.Spec
