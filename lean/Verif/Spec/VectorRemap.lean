import Verif.Model.VectorRemap
/-
Specification of the remapping of vectors: a vector has eastward and northward components (E, N); along the axes of a cell, turned by an angle with
cosine c and sine s, its components are (E c + N s, - E s + N c).
-/
namespace Verif.Spec.VectorRemap
open Verif.VectorRemap
variable {K : Type} [Field K] [LinearOrder K]

/-- Components along the axes of a cell. -/
def along (c s : K) (w : K × K) : K × K := (w.1 * c + w.2 * s, - w.1 * s + w.2 * c)

/-- Cosine and sine that the program uses: no turn if it finds no angle. -/
def Angles.c (a : Angles K) (i : Nat) : K := if a.rotate then a.cos i else 1
def Angles.s (a : Angles K) (i : Nat) : K := if a.rotate then a.sin i else 0

/-- The numbers are cosine and sine of an angle. -/
def Angles.Proper (a : Angles K) : Prop := ∀ i, a.cos i * a.cos i + a.sin i * a.sin i = 1

/-- Square of the length. -/
def len2 (w : K × K) : K := w.1 * w.1 + w.2 * w.2

/-- The part of a list of cells that belongs to output cell `n` and has data; `ok` says where there are data. -/
def parts (nx2 : Nat) (n : Nat) (ok : XCell K → Bool) (cells : List (XCell K)) : List (XCell K) :=
  cells.filter (fun c => c.j2 * nx2 + c.i2 = n ∧ ok c)

/-- Sum of areas; sum of a quantity times area. -/
def total (cells : List (XCell K)) : K := (cells.map (fun c => c.area)).sum
def weighted (f : XCell K → K) (cells : List (XCell K)) : K := (cells.map (fun c => f c * c.area)).sum

end Verif.Spec.VectorRemap
