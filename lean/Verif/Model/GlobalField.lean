import Verif.Model.Mpp
import Verif.Model.Domain2D
/-
Assembling distributed data: lib/libfrencutils/mpp_domain.c
* `mpp_get_shift` 326-352
* `mpp_global_field_all_double` 359-433
* `mpp_global_field_double` 441-513, `mpp_global_field_int` 520-592,
  `mpp_global_field_double_3D` 600-698
* `mpp_gather_field_int` 704-748, `mpp_gather_field_int_root` 754-807,
  `mpp_gather_field_double_root` 814-864, `mpp_gather_field_double` 871-914
-/
namespace Verif

/-- A destination array; `none` is an element that was not written (or was written from an
uninitialised part of a receive buffer). -/
abbrev Mem (α : Type) := Int → Option α

/-- A sequence of array stores. -/
def store {α : Type} (g : Mem α) (ws : List (Int × Option α)) : Mem α :=
  ws.foldl (fun g w => fun a => if a = w.1 then w.2 else g a) g

/-- Stores of `buf[0], buf[1], ...` to the listed addresses (`gdata[...] = recv_buffer[n++]`). -/
def zipWrites {α : Type} : List Int → List α → List (Int × Option α)
  | [], _ => []
  | a :: as, [] => (a, none) :: zipWrites as []
  | a :: as, v :: vs => (a, some v) :: zipWrites as vs

/-- The values of a C loop variable `for(i = a; i <= b; i++)`. -/
def irange (a b : Int) : List Int := (List.range (b + 1 - a).toNat).map (fun n : Nat => a + n)

/-- Index triples `(i, j, k)` in the order of the loops `for k, for j, for i`. -/
def cells (is ie js je : Int) (nz : Nat) : List (Int × Int × Int) :=
  (irange 0 ((nz : Int) - 1)).flatMap (fun k =>
    (irange js je).flatMap (fun j => (irange is ie).map (fun i => (i, j, k))))

/-- The processor's own fields of `domain2D`, mpp_domain.c 217-228. -/
structure OwnDomain where
  isc : Int
  iec : Int
  jsc : Int
  jec : Int
  xhalo : Int
  yhalo : Int

namespace OwnDomain
def nxc (d : OwnDomain) : Int := d.iec - d.isc + 1
def nyc (d : OwnDomain) : Int := d.jec - d.jsc + 1
def isd (d : OwnDomain) : Int := d.isc - d.xhalo
def jsd (d : OwnDomain) : Int := d.jsc - d.yhalo
def nxd (d : OwnDomain) : Int := (d.iec + d.xhalo) - d.isd + 1
def nyd (d : OwnDomain) : Int := (d.jec + d.yhalo) - d.jsd + 1
end OwnDomain

/-- `mpp_get_shift`, mpp_domain.c 326-352; `none` is `mpp_error`. -/
def getShift (d : OwnDomain) (sizex sizey : Int) : Option (Int × Int) :=
  if (sizex = d.nxc ∧ sizey = d.nyc) ∨ (sizex = d.nxd ∧ sizey = d.nyd) then some (0, 0)
  else if (sizex = d.nxc + 1 ∧ sizey = d.nyc) ∨ (sizex = d.nxd + 1 ∧ sizey = d.nyd) then some (1, 0)
  else if (sizex = d.nxc ∧ sizey = d.nyc + 1) ∨ (sizex = d.nxd ∧ sizey = d.nyd + 1) then some (0, 1)
  else if (sizex = d.nxc + 1 ∧ sizey = d.nyc + 1) ∨ (sizex = d.nxd + 1 ∧ sizey = d.nyd + 1) then
    some (1, 1)
  else none

/-- The array a processor passes in: its declared sizes and contents. -/
structure LocalField (α : Type) where
  sizex : Int
  sizey : Int
  ldata : Int → α

/-- The part of the local array that is contributed, in the order in which it is sent
(mpp_domain.c 627-644 for workers; 651-661 reads the same elements on the root). -/
def packLocal {α : Type} (d : OwnDomain) (l : LocalField α) (nz : Nat) : Option (List α) :=
  match getShift d l.sizex l.sizey with
  | none => none
  | some (ishift, jshift) =>
    if l.sizex = d.nxc + ishift ∧ l.sizey = d.nyc + jshift then
      some ((List.range (l.sizex * l.sizey * nz).toNat).map (fun n : Nat => l.ldata n))
    else if l.sizex = d.nxd + ishift ∧ l.sizey = d.nyd + jshift then
      some ((cells d.isc (d.iec + ishift) d.jsc (d.jec + jshift) nz).map (fun c =>
        l.ldata (c.2.2 * (d.nxd + ishift) * (d.nyd + jshift)
          + (c.2.1 - d.jsd) * (d.nxd + ishift) + (c.1 - d.isd))))
    else none

/-- Addresses in `gdata` of processor `p`'s block, mpp_domain.c 674-680, with the array sizes
`nxg = domain.nxg + ishift` (621) and `nyg = domain.nyg + ishift` (622; sic: `ishift`). -/
def blockAddrs (dom : Domain2D) (ishift jshift : Int) (nz : Nat) (b : Int × Int × Int × Int) :
    List Int :=
  (cells b.1 (b.2.1 + ishift) b.2.2.1 (b.2.2.2 + jshift) nz).map (fun c =>
    c.2.2 * (dom.nxg + ishift) * (dom.nyg + ishift) + c.2.1 * (dom.nxg + ishift) + c.1)

/-- Entry `p` of the processor list. -/
def ownOf (dom : Domain2D) (pe : Nat) : Option OwnDomain :=
  dom.pes[pe]?.map (fun b => ⟨b.1, b.2.1, b.2.2.1, b.2.2.2, dom.xhalo, dom.yhalo⟩)

/-- One turn of the receiving loop: store the buffer `m` into processor `p`'s block. -/
def storeBlock {α : Type} (dom : Domain2D) (ishift jshift : Int) (nz : Nat) (g : Mem α) (p : Nat)
    (m : List α) : Mem α :=
  match dom.pes[p]? with
  | none => g
  | some b => store g (zipWrites (blockAddrs dom ishift jshift nz b) m)

/-- `mpp_global_field_double_3D`, mpp_domain.c 600-698, as executed by processor `pe`. The routines
`mpp_global_field_double` (441-513) and `mpp_global_field_int` (520-592) are the same without the
loop over `k`, which is `nz = 1` here (the offset of `k = 0` is zero). `none` is `mpp_error`.
Simplified: the barrier after the last `mpp_sync_self` (687) is left out; the static buffers
`sBuffer`, `rBuffer` are not distinguished from allocated ones. -/
def globalFieldProg {α : Type} (dom : Domain2D) (nz : Nat) (root pe : Nat) (l : LocalField α)
    (g0 : Mem α) : Option (Prog α (Mem α)) :=
  match ownOf dom pe with
  | none => none
  | some d =>
    match getShift d l.sizex l.sizey, packLocal d l nz with
    | some (ishift, jshift), some buf =>
      some (if pe = root then
        recvLoop (fun p => p != root) (storeBlock dom ishift jshift nz)
          (fun g p => storeBlock dom ishift jshift nz g p buf)
          (fun g => .sync (.done g)) (List.range dom.pes.length) g0
      else .send root buf (.sync (.done g0)))
    | _, _ => none

/-- `mpp_global_field_all_double`, mpp_domain.c 359-433: every processor sends to every processor
(itself included) and assembles the array. With one processor the array is copied directly to
`gdata[0..]` (386-388, 397-399). -/
def globalFieldAllProg {α : Type} (dom : Domain2D) (pe : Nat) (l : LocalField α)
    (g0 : Mem α) : Option (Prog α (Mem α)) :=
  match ownOf dom pe with
  | none => none
  | some d =>
    match getShift d l.sizex l.sizey, packLocal d l 1 with
    | some (ishift, jshift), some buf =>
      some (if dom.pes.length = 1 then
        .done (store g0 (zipWrites ((List.range buf.length).map (fun n : Nat => (n : Int))) buf))
      else
        sendLoop (fun _ => true) (fun _ => buf)
          (recvLoop (fun _ => true) (storeBlock dom ishift jshift 1) (fun g _ => g)
            (fun g => .sync (.done g)) (List.range dom.pes.length) g0)
          (List.range dom.pes.length))
    | _, _ => none

/-! ### Gather of lists -/

/-- A message is either one integer (a size) or a list of data; elements carry a tag. -/
abbrev Elt (α : Type) := Sum Nat α

/-- The integer received into `rsize[p]`. A message that is not a single integer cannot be received
into it; the totalised value 0 is never used (theorem C06 shows every receive gets the size). -/
def asSize {α : Type} : List (Elt α) → Nat
  | [.inl n] => n
  | _ => 0

/-- The data elements of a message. -/
def asData {α : Type} (m : List (Elt α)) : List α :=
  m.filterMap (fun e => match e with | .inl _ => none | .inr v => some v)

/-- The last part of both gather routines: receive in processor order and concatenate
(mpp_domain.c 732-743, 784-799). -/
def gatherRecv {α : Type} (npes pe : Nat) (ldata : List α) (rsize : Nat → Nat) :
    Prog (Elt α) (List α) :=
  recvLoop (fun p => p != pe && decide (0 < rsize p)) (fun out _ m => out ++ asData m)
    (fun out p => if p = pe then out ++ ldata else out)
    (fun out => .sync (.done out)) (List.range npes) []

/-- `mpp_gather_field_int` 704-748 / `mpp_gather_field_double` 871-914 on processor `pe`, whose data
are `ldata` (`lsize` is its length). The result is `gdata`. -/
def gatherAllProg {α : Type} (npes pe : Nat) (ldata : List α) : Prog (Elt α) (List α) :=
  sendLoop (fun p => p != pe) (fun _ => [.inl ldata.length])
    (recvLoop (fun p => p != pe) (fun rsize p m => set1 rsize p (asSize m)) (fun rsize _ => rsize)
      (fun rsize => .sync
        (sendLoop (fun p => p != pe && decide (0 < ldata.length)) (fun _ => ldata.map .inr)
          (gatherRecv npes pe ldata rsize) (List.range npes)))
      (List.range npes) (fun _ => 0))
    (List.range npes)

/-- `mpp_gather_field_int_root` 754-807 / `mpp_gather_field_double_root` 814-864. Workers return the
empty list (their `gdata` is not touched). -/
def gatherRootProg {α : Type} (npes root pe : Nat) (ldata : List α) : Prog (Elt α) (List α) :=
  if pe = root then
    recvLoop (fun p => p != root) (fun rsize p m => set1 rsize p (asSize m)) (fun rsize _ => rsize)
      (fun rsize => .sync (gatherRecv npes root ldata rsize)) (List.range npes) (fun _ => 0)
  else .send root [.inl ldata.length]
    (.sync (if 0 < ldata.length then .send root (ldata.map .inr) (.sync (.done []))
      else .sync (.done [])))

end Verif
