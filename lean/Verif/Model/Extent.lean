import Verif.Model.Loop
/-
Model of the one-dimensional domain decomposition.

* `lib/libfrencutils/mpp_domain.c`  lines 68-85  (`mpp_define_layout`)
* `lib/libfrencutils/mpp_domain.c`  lines 101-160 (`mpp_compute_extent`, library version)
* `src/mpp-ncscatter/mppncscatter.c` lines 1211-1257 (`mpp_compute_extent`, scatter version)
* `src/mpp-ncscatter/mppncscatter.c` lines 417-493 (`get_scatter_extents`, `..._iolayout`)
-/
namespace Verif

/-- Ways in which a decomposition routine can stop. `tooMany`, `notPositive`, `notSpan` are the
three `mpp_error` calls (mpp_domain.c 109, 154, 156); `uninit` is a read of a mirror entry that was
never stored; `wrap` is an unsigned subtraction that wraps in the `size_t` version. -/
inductive ExtErr where
  | tooMany | notPositive | notSpan | uninit | wrap
  deriving DecidableEq, Repr

/-- `ceil(a/b)` in exact arithmetic (mpp_domain.c 131, 148). Property C44 is about the rounding of
the floating-point quotient. -/
def ceilDiv (a b : Int) : Int := -((-a) / b)

/-- `symmetrize`, mpp_domain.c 112-117; the same condition is mppncscatter.c 1218-1220. -/
def symmetrize (npts ndivs : Int) : Bool :=
  (ndivs % 2 == 1 && npts % 2 == 1) || (ndivs % 2 == 0 && npts % 2 == 0) ||
  (ndivs % 2 == 1 && npts % 2 == 0 && decide (ndivs < npts / 2))

/-- Loop state. `tab k` is the pair `(ibegin[k], iend[k])`; `none` is an entry not yet written. The
two arrays are always written together, so they are one table here. -/
structure ExtSt where
  is : Int
  imax : Int
  ndmax : Int
  tab : Nat → Option (Int × Int)

/-- Array store. -/
def setTab {α : Type} (t : Nat → Option α) (k : Nat) (v : α) : Nat → Option α :=
  fun i => if i = k then some v else t i

/-- One iteration of the loop mpp_domain.c 122-158, for a range `isg..ieg`. The library version has
`isg = 0`. The assignments of lines 124-127 (`ndiv == 0`) are in the initial state. -/
def extStep (sym : Bool) (isg ieg : Int) (ndivs : Nat) (ndiv : Nat) (st : ExtSt) :
    Except ExtErr ExtSt :=
  let fin (is ie imax ndmax : Int) (tab : Nat → Option (Int × Int)) : Except ExtErr ExtSt :=
    if ie < is then .error .notPositive
    else if ndiv + 1 = ndivs ∧ ie ≠ ieg then .error .notSpan
    else .ok { is := ie + 1, imax := imax, ndmax := ndmax, tab := setTab tab ndiv (is, ie) }
  if ndiv < (ndivs - 1) / 2 + 1 then
    let ie := st.is + ceilDiv (st.imax - st.is + 1) (st.ndmax - ndiv) - 1
    let ndmirror := (ndivs - 1) - ndiv
    if ndmirror > ndiv ∧ sym = true then
      let b := max (isg + ieg - ie) (ie + 1)
      let e := max (isg + ieg - st.is) (ie + 1)
      fin st.is ie (b - 1) (st.ndmax - 1) (setTab st.tab ndmirror (b, e))
    else fin st.is ie st.imax st.ndmax st.tab
  else if sym = true then
    match st.tab ndiv with
    | none => .error .uninit
    | some (b, e) => fin b e st.imax st.ndmax st.tab
  else
    let ie := st.is + ceilDiv (st.imax - st.is + 1) (st.ndmax - ndiv) - 1
    fin st.is ie st.imax st.ndmax st.tab

/-- Read back the first `n` entries of a table. -/
def readTab {α : Type} (t : Nat → Option α) : Nat → Except ExtErr (List α)
  | 0 => .ok []
  | n + 1 =>
    match readTab t n, t n with
    | .ok l, some v => .ok (l ++ [v])
    | .error e, _ => .error e
    | _, none => .error .uninit

/-- The loop over all divisions for the range `isg..ieg`. -/
def extLoop (isg ieg : Int) (ndivs : Nat) : Except ExtErr (List (Int × Int)) :=
  match forLoop (extStep (symmetrize (ieg - isg + 1) ndivs) isg ieg ndivs) 0 ndivs
      { is := isg, imax := ieg, ndmax := ndivs, tab := fun _ => none } with
  | .error e => .error e
  | .ok st => readTab st.tab ndivs

/-- `mpp_compute_extent(npts, ndivs, ibegin, iend)`, mpp_domain.c 101-160. The result is the list of
`(ibegin[k], iend[k])`. -/
def mppComputeExtent (npts ndivs : Nat) : Except ExtErr (List (Int × Int)) :=
  if ndivs > npts then .error .tooMany          -- lines 108-110
  else extLoop 0 ((npts : Int) - 1) ndivs

end Verif

namespace Verif

/-- One iteration of mppncscatter.c 1217-1256. The variables are `size_t`: `imax - iss` with
`imax < iss` and `ndmax - ndiv` with `ndmax ≤ ndiv` wrap around, which is the outcome `wrap`.
Bad extents are only reported on stderr (lines 1248-1253); the second component counts the
messages. The quotient is computed in `float`; it is exact here (see C44). -/
def scatterStep (sym : Bool) (isg ieg : Int) (ndivs : Nat) (ndiv : Nat) (s : ExtSt × Nat) :
    Except ExtErr (ExtSt × Nat) :=
  let st := s.1
  let fin (is ie imax ndmax : Int) (tab : Nat → Option (Int × Int)) : Except ExtErr (ExtSt × Nat) :=
    .ok ({ is := ie + 1, imax := imax, ndmax := ndmax, tab := setTab tab ndiv (is, ie) },
      s.2 + (if ie < is then 1 else 0) + (if ndiv + 1 = ndivs ∧ ie ≠ ieg then 1 else 0))
  if ndiv < (ndivs - 1) / 2 + 1 then
    if st.imax < st.is ∨ st.ndmax ≤ ndiv then .error .wrap
    else
      let ie := st.is + ceilDiv (st.imax - st.is + 1) (st.ndmax - ndiv) - 1
      let ndmirror := (ndivs - 1) - ndiv
      if ndmirror > ndiv ∧ sym = true then
        let b := max (isg + ieg - ie) (ie + 1)
        let e := max (isg + ieg - st.is) (ie + 1)
        fin st.is ie (b - 1) (st.ndmax - 1) (setTab st.tab ndmirror (b, e))
      else fin st.is ie st.imax st.ndmax st.tab
  else if sym = true then
    match st.tab ndiv with
    | none => .error .uninit
    | some (b, e) => fin b e st.imax st.ndmax st.tab
  else if st.imax < st.is ∨ st.ndmax ≤ ndiv then .error .wrap
  else
    let ie := st.is + ceilDiv (st.imax - st.is + 1) (st.ndmax - ndiv) - 1
    fin st.is ie st.imax st.ndmax st.tab

/-- `mpp_compute_extent` of mppncscatter.c 1211-1257: the extents and the number of error messages
printed. There is no check that `ndivs ≤ ieg - isg + 1`. -/
def scatterComputeExtent (isg ieg : Int) (ndivs : Nat) :
    Except ExtErr (List (Int × Int) × Nat) :=
  match forLoop (scatterStep (symmetrize (ieg - isg + 1) ndivs) isg ieg ndivs) 0 ndivs
      ({ is := isg, imax := ieg, ndmax := ndivs, tab := fun _ => none }, 0) with
  | .error e => .error e
  | .ok s =>
    match readTab s.1.tab ndivs with
    | .error e => .error e
    | .ok l => .ok (l, s.2)

/-- `get_scatter_extents`, mppncscatter.c 417-433, for one scattered dimension of length `len`:
`(scatter_start[j], scatter_end[j])` for `j < ndiv`. -/
def scatterExtents (len ndiv : Nat) : Except ExtErr (List (Int × Int) × Nat) :=
  scatterComputeExtent 0 ((len : Int) - 1) ndiv

/-- The `while` loop of `get_scatter_extents_iolayout`, mppncscatter.c 470-477, as a recursion over
the list of extents: take the first `step` extents, keep the start of the first and the end of the
last. `fuel` bounds the number of iterations (`ndiv` suffices because `step ≥ 1`). Reading
`scatter_end[i + step - 1]` beyond the array is `uninit`; `step = 0` would loop forever and is
`wrap`. -/
def ioCoarsen (step : Nat) : Nat → List (Int × Int) → Except ExtErr (List (Int × Int))
  | _, [] => .ok []
  | 0, _ :: _ => .error .wrap
  | fuel + 1, (x :: xs) =>
    match (x :: xs)[step - 1]? with
    | none => .error .uninit
    | some y =>
      match ioCoarsen step fuel ((x :: xs).drop step) with
      | .error e => .error e
      | .ok t => .ok ((x.1, y.2) :: t)

/-- `scatter_dims`, mppncscatter.c 1172-1192, for one scattered dimension: optional conversion to
the I/O layout when `ndivio ≠ 0`, refused unless `ndiv % ndivio = 0`. The code tests
`nxio && nyio` for both axes together; here the caller passes `ndivio = 0` for "no I/O layout". -/
def scatterDimExtents (len ndiv ndivio : Nat) : Except ExtErr (List (Int × Int)) :=
  match scatterExtents len ndiv with
  | .error e => .error e
  | .ok (l, _) =>
    if ndivio = 0 then .ok l
    else if ndiv % ndivio ≠ 0 then .error .notSpan        -- lines 1181-1189: exit(1)
    else ioCoarsen (ndiv / ndivio) ndiv l

/-- The search of `mpp_define_layout`, mpp_domain.c 79-81: decrease `idiv` until it divides `ndivs`.
C's `%` by zero is excluded by the caller (line 78); here recursion stops at 0. -/
def layoutSearch (ndivs : Nat) : Nat → Nat
  | 0 => 0
  | idiv + 1 => if ndivs % (idiv + 1) ≠ 0 then layoutSearch ndivs idiv else idiv + 1

/-- `mpp_define_layout`, mpp_domain.c 68-85, from line 78 on. `guess` is the rounded value of
`sqrt(ndivs*ni/nj)` (lines 75-77); its floating-point computation is not modelled, any integer is
allowed. -/
def defineLayout (guess : Int) (ndivs : Nat) : Nat × Nat :=
  let idiv0 : Nat := if guess > 1 then guess.toNat else 1
  let idiv := layoutSearch ndivs idiv0
  (idiv, ndivs / idiv)

end Verif
