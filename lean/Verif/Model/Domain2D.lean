import Verif.Model.Extent
/-
Two-dimensional decomposition: lib/libfrencutils/mpp_domain.c 167-235.
-/
namespace Verif

/-- The per-processor lists of a `domain2D` (mpp_domain.h 40-49): processor `n` computes on
`isc[n]..iec[n] x jsc[n]..jec[n]`. -/
structure Domain2D where
  /-- `(isclist[n], ieclist[n], jsclist[n], jeclist[n])` -/
  pes : List (Int × Int × Int × Int)
  nxg : Nat
  nyg : Nat
  xhalo : Int
  yhalo : Int

/-- `mpp_define_domain2d(ni, nj, layout, xhalo, yhalo, domain)`, mpp_domain.c 191-235: the
processor list is filled with `j` outer, `i` inner (lines 204-213). The fields of the calling
processor (lines 217-228) are the entry `pes[pe]`. -/
def defineDomain2D (ni nj l0 l1 : Nat) (xhalo yhalo : Int) : Except ExtErr Domain2D :=
  match mppComputeExtent ni l0, mppComputeExtent nj l1 with
  | .ok xs, .ok ys =>
    .ok { pes := ys.flatMap (fun y => xs.map (fun x =>
            (x.1 + xhalo, x.2 + xhalo, y.1 + yhalo, y.2 + yhalo))),
          nxg := ni, nyg := nj, xhalo := xhalo, yhalo := yhalo }
  | .error e, _ => .error e
  | _, .error e => .error e

end Verif
