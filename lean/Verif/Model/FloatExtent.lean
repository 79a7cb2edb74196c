import Verif.Model.Extent
import Mathlib.Data.Real.Archimedean
import Mathlib.Algebra.Order.Round
/-
Model of the one-dimensional domain decomposition with the floating-point quotient: as `Model/Extent.lean`, with the
quotient rounded up (`cd`) as a parameter.

* `lib/libfrencutils/mpp_domain.c` 101-160, quotient 131 and 148 in `double`
* `src/mpp-ncscatter/mppncscatter.c` 1211-1257, quotient 1228 and 1241 in `float`
-/
namespace Verif.FloatExtent

/-- `ceil(a/b)` with both operands converted and the quotient rounded by `rd`. `ceil` itself and the sums with it are in
`double` and exact for the sizes considered. -/
noncomputable def floatCeil (rd : ℝ → ℝ) (a b : Int) : Int := ⌈rd (rd a / rd b)⌉

/-- mpp_domain.c 122-158, see `extStep`. -/
def extStepWith (cd : Int → Int → Int) (sym : Bool) (isg ieg : Int) (ndivs : Nat) (ndiv : Nat) (st : ExtSt) :
    Except ExtErr ExtSt :=
  let fin (is ie imax ndmax : Int) (tab : Nat → Option (Int × Int)) : Except ExtErr ExtSt :=
    if ie < is then .error .notPositive
    else if ndiv + 1 = ndivs ∧ ie ≠ ieg then .error .notSpan
    else .ok { is := ie + 1, imax := imax, ndmax := ndmax, tab := setTab tab ndiv (is, ie) }
  if ndiv < (ndivs - 1) / 2 + 1 then
    let ie := st.is + cd (st.imax - st.is + 1) (st.ndmax - ndiv) - 1
    let ndmirror := (ndivs - 1) - ndiv
    if ndmirror > ndiv ∧ sym = true then
      let b := max (isg + ieg - ie) (ie + 1)
      let e := max (isg + ieg - st.is) (ie + 1)
      fin st.is ie (b - 1) (st.ndmax - 1) (setTab st.tab ndmirror (b, e))
    else fin st.is ie st.imax st.ndmax st.tab
  else if sym = true then
    match st.tab ndiv with
    | none => .error .uninit
    | some (b, e) => fin b e st.imax st.ndmax st.tab
  else
    let ie := st.is + cd (st.imax - st.is + 1) (st.ndmax - ndiv) - 1
    fin st.is ie st.imax st.ndmax st.tab

/-- `mpp_compute_extent`, mpp_domain.c 101-160, see `mppComputeExtent`. -/
def mppComputeExtentWith (cd : Int → Int → Int) (npts ndivs : Nat) : Except ExtErr (List (Int × Int)) :=
  if ndivs > npts then .error .tooMany
  else
    match forLoop (extStepWith cd (symmetrize ((npts : Int) - 1 - 0 + 1) ndivs) 0 ((npts : Int) - 1) ndivs) 0 ndivs
        { is := 0, imax := (npts : Int) - 1, ndmax := ndivs, tab := fun _ => none } with
    | .error e => .error e
    | .ok st => readTab st.tab ndivs

/-- mppncscatter.c 1217-1256, see `scatterStep`. -/
def scatterStepWith (cd : Int → Int → Int) (sym : Bool) (isg ieg : Int) (ndivs : Nat) (ndiv : Nat) (s : ExtSt × Nat) :
    Except ExtErr (ExtSt × Nat) :=
  let st := s.1
  let fin (is ie imax ndmax : Int) (tab : Nat → Option (Int × Int)) : Except ExtErr (ExtSt × Nat) :=
    .ok ({ is := ie + 1, imax := imax, ndmax := ndmax, tab := setTab tab ndiv (is, ie) },
      s.2 + (if ie < is then 1 else 0) + (if ndiv + 1 = ndivs ∧ ie ≠ ieg then 1 else 0))
  if ndiv < (ndivs - 1) / 2 + 1 then
    if st.imax < st.is ∨ st.ndmax ≤ ndiv then .error .wrap
    else
      let ie := st.is + cd (st.imax - st.is + 1) (st.ndmax - ndiv) - 1
      let ndmirror := (ndivs - 1) - ndiv
      if ndmirror > ndiv ∧ sym = true then
        let b := max (isg + ieg - ie) (ie + 1)
        let e := max (isg + ieg - st.is) (ie + 1)
        fin st.is ie (b - 1) (st.ndmax - 1) (setTab st.tab ndmirror (b, e))
      else fin st.is ie st.imax st.ndmax st.tab
  else if sym = true then
    match st.tab ndiv with
    | none => .error .uninit
    | some (b, e) => fin b e st.imax st.ndmax st.tab
  else if st.imax < st.is ∨ st.ndmax ≤ ndiv then .error .wrap
  else
    let ie := st.is + cd (st.imax - st.is + 1) (st.ndmax - ndiv) - 1
    fin st.is ie st.imax st.ndmax st.tab

/-- `mpp_compute_extent` of mppncscatter.c 1211-1257, see `scatterComputeExtent`. -/
def scatterComputeExtentWith (cd : Int → Int → Int) (isg ieg : Int) (ndivs : Nat) :
    Except ExtErr (List (Int × Int) × Nat) :=
  match forLoop (scatterStepWith cd (symmetrize (ieg - isg + 1) ndivs) isg ieg ndivs) 0 ndivs
      ({ is := isg, imax := ieg, ndmax := ndivs, tab := fun _ => none }, 0) with
  | .error e => .error e
  | .ok s =>
    match readTab s.1.tab ndivs with
    | .error e => .error e
    | .ok l => .ok (l, s.2)

end Verif.FloatExtent
