import Verif.Model.Clip
/-
Model of the adjustment of longitudes and of vertex lists.

Source: /repo/lib/libfrencutils/mosaic_util.c `delete_vtx` 636-644, `insert_vtx` 646-658, `fix_lon` 667-738;
/repo/lib/libfrencutils/tool_util.c `lon_in_range` 343-366. (`pimod` of create_xgrid.c 1359-1365 is
`Clip.pimod1`.)

Simplifications: numbers are an ordered field with an element `pi` given; `TPI` is `2 * pi`, `HPI` is `pi / 2`.
`fix_lon` works on a list of vertices; its calls of `insert_vtx` and `delete_vtx` are list edits, which is what the
array loops do (theorems C33). The debugging output switched off by `0&&` is left out. The arrays of the callers
have room for 50 vertices, the result has at most `2 n + 2`.
-/
namespace Verif.Lon
open Verif.Clip (Pt pimod1)

/-! ### delete_vtx, insert_vtx on arrays -/

section arrays
variable {α : Type}

/-- `a[k] = v` -/
def put (a : Nat → α) (k : Nat) (v : α) : Nat → α := fun n => if n = k then v else a n

/-- The loop of `delete_vtx` (638-641), `rounds` = `n - 1 - n_del`. -/
def delLoop : (rounds : Nat) → (a : Nat → α) → (k : Nat) → Nat → α
  | 0, a, _ => a
  | r + 1, a, k => delLoop r (put a k (a (k + 1))) (k + 1)

/-- `delete_vtx`: the array and the new number of vertices. -/
def deleteVtx (a : Nat → α) (n k : Nat) : (Nat → α) × Int := (delLoop (n - 1 - k) a k, (n : Int) - 1)

/-- The loop of `insert_vtx` (650-653) for `i = k + rounds - 1` down to `k`. -/
def insLoop : (rounds : Nat) → (a : Nat → α) → (k : Nat) → Nat → α
  | 0, a, _ => a
  | r + 1, a, k => insLoop r (put a (k + r + 1) (a (k + r))) k

/-- `insert_vtx`. -/
def insertVtx (a : Nat → α) (n k : Nat) (v : α) : (Nat → α) × Int :=
  (put (insLoop (n - k) a k) k v, (n : Int) + 1)

end arrays

variable {K : Type} [Field K] [LinearOrder K]

/-! ### fix_lon -/

/-- `fabs(y[i])>=HPI-TOLORENCE` -/
def isPole (pi tol : K) (p : Pt K) : Bool := decide (|p.2| ≥ pi / 2 - tol)

/-- The latitudes of the neighbours `(i+nn-1)%nn` and `(i+1)%nn`; `0` is never used, the indices are valid. -/
def yAt (l : List (Pt K)) (i : Nat) : K := (l[i]?.map Prod.snd).getD 0
def xAt (l : List (Pt K)) (i : Nat) : K := (l[i]?.map Prod.fst).getD 0
def prevIx (l : List (Pt K)) (i : Nat) : Nat := (i + l.length - 1) % l.length
def nextIx (l : List (Pt K)) (i : Nat) : Nat := (i + 1) % l.length

/-- 682-692: pole points are paired. -/
def pairPoles (pi tol : K) (l : List (Pt K)) (i : Nat) : List (Pt K) :=
  if h : i < l.length then
    let y := (l[i]).2
    if isPole pi tol l[i] then
      if yAt l (prevIx l i) = y ∧ yAt l (nextIx l i) = y then pairPoles pi tol (l.eraseIdx i) i
      else if yAt l (prevIx l i) ≠ y ∧ yAt l (nextIx l i) ≠ y then
        pairPoles pi tol (l.insertIdx i l[i]) (i + 2)
      else pairPoles pi tol l (i + 1)
    else pairPoles pi tol l (i + 1)
  else l
termination_by l.length - i
decreasing_by
  · rw [List.length_eraseIdx]; simp only [h, if_true]; omega
  · rw [List.length_insertIdx]; split <;> omega
  · omega
  · omega

/-- One round of 695-700. -/
def poleLon (pi tol : K) (l : List (Pt K)) (i : Nat) : List (Pt K) :=
  match l[i]? with
  | none => l
  | some p =>
    if isPole pi tol p then
      let l1 := if yAt l (prevIx l i) ≠ p.2 then l.set i (xAt l (prevIx l i), p.2) else l
      if yAt l1 (nextIx l1 i) ≠ p.2 then l1.set i (xAt l1 (nextIx l1 i), p.2) else l1
    else l

/-- 695-700: longitudes of pole points. -/
def poleLons (pi tol : K) (l : List (Pt K)) : List (Pt K) := (List.range l.length).foldl (poleLon pi tol) l

/-- The side into vertex `i` passes through a pole (707-708). -/
def through (pi small : K) (l : List (Pt K)) (i : Nat) : Bool :=
  let dx := xAt l i - xAt l (prevIx l i)
  decide (|dx + pi| < small) || decide (|dx - pi| < small)

/-- 704-718: twin vertices at the pole, for the first such side. -/
def twins (pi small : K) (l : List (Pt K)) : List (Pt K) :=
  match (List.range l.length).find? (through pi small l) with
  | none => l
  | some i =>
    let yp := if yAt l i < 0 then -(pi / 2) else pi / 2
    (l.insertIdx i (xAt l i, yp)).insertIdx i (xAt l (prevIx l i), yp)

/-- 720-726 behind the first vertex, `prev` is `x[i-1]`. -/
def unwrap (pi : K) : K → List (Pt K) → List (Pt K)
  | _, [] => []
  | prev, p :: ps =>
    let x := prev + pimod1 pi (p.1 - prev)
    (x, p.2) :: unwrap pi x ps

/-- 719-726. -/
def unwrapAll (pi : K) : List (Pt K) → List (Pt K)
  | [] => []
  | p :: ps => p :: unwrap pi p.1 ps

/-- 728-730. -/
def recentre (pi tlon : K) (l : List (Pt K)) : List (Pt K) :=
  let dx := (l.map Prod.fst).sum / (l.length : K) - tlon
  if dx < -pi then l.map fun p => (p.1 + 2 * pi, p.2)
  else if dx > pi then l.map fun p => (p.1 - 2 * pi, p.2)
  else l

/-- `fix_lon`. -/
def fixLon (pi tol small tlon : K) (l : List (Pt K)) : List (Pt K) :=
  recentre pi tlon (unwrapAll pi (twins pi small (poleLons pi tol (pairPoles pi tol l 0))))

/-! ### lon_in_range -/

/-- The loop 355-362; `fuel` bounds the rounds, `none` means that it has not ended. -/
def rangeLoop (strt fin turn : K) : Nat → K → Option K
  | 0, _ => none
  | fuel + 1, x =>
    if x < strt then rangeLoop strt fin turn fuel (x + turn)
    else if x > fin then rangeLoop strt fin turn fuel (x - turn)
    else some x

/-- `lon_in_range`; `small` is `SMALL`. -/
def lonInRange (small : K) (fuel : Nat) (lon strt : K) : Option K :=
  let fin := strt + 360
  if |lon - strt| < small then some strt
  else if |lon - fin| < small then some strt
  else rangeLoop strt fin 360 fuel lon

end Verif.Lon
