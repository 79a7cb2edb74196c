import Verif.Model.RemapDest
/-
Model of src/remap-land/remap_land.c, third part: the search and sort functions and the cohorts of the vegetation file.
-/
namespace Verif.RemapLand

/-! ## binary_search, l.2723-2739 -/

/-- `binary_search_`, l.2723-2736: position of `k` in `v[l], ..., v[r]`; `none` for `-1`. `fuel` bounds the depth of the
recursion; `binarySearch` gives enough, see `bsearch_spec`. -/
def bsearch (k : Nat) (v : Int → Nat) : Nat → Int → Int → Option Int
  | 0, _, _ => none
  | fuel + 1, l, r =>
    if l ≤ r then
      let midp := l + (r - l) / 2
      if v midp = k then some midp
      else if k < v midp then bsearch k v fuel l (midp - 1)
      else bsearch k v fuel (midp + 1) r
    else none

/-- `binary_search`, l.2737-2739 -/
def binarySearch (k : Nat) (v : List Nat) : Option Nat :=
  (bsearch k (fun i => v[i.toNat]!) v.length 0 (v.length - 1)).map Int.toNat

/-! ## quick_sort, l.2741-2824

The arrays `v` and `v2` are one array of pairs: every swap of elements of `v` is followed by the swap of the same elements of
`v2`. -/

section
variable {α : Type}

/-- `swap_vals` on elements `i` and `j` -/
def swapVals (a : Int → α) (i j : Int) : Int → α := fun q => if q = i then a j else if q = j then a i else a q

/-- The loop of `partition`, l.2777-2785, for `j = low, ..., low + n - 1`: the array and `i` -/
def partLoop (key : α → Int) (pivot low : Int) (a : Int → α) : Nat → (Int → α) × Int
  | 0 => (a, low - 1)
  | n + 1 =>
    let s := partLoop key pivot low a n
    if key (s.1 (low + n)) ≤ pivot then (swapVals s.1 (s.2 + 1) (low + n), s.2 + 1) else s

/-- `partition`, l.2774-2791 -/
def partition (key : α → Int) (a : Int → α) (low high : Int) : (Int → α) × Int :=
  let s := partLoop key (key (a high)) low a (high - low).toNat
  (swapVals s.1 (s.2 + 1) high, s.2 + 1)

/-- `partition_rp`, l.2794-2805. `rnd` is the value of `rand()`; the generator is seeded with the time before every call, and
no two calls in one sort have the same `low` and `high`, so it is an arbitrary function of these. -/
def partitionRp (key : α → Int) (rnd : Int → Int → Nat) (a : Int → α) (low high : Int) : (Int → α) × Int :=
  let random := low + rnd low high % (high - low)
  partition key (swapVals a random high) low high

/-- `quick_sort_`, l.2809-2815; `fuel` bounds the depth of the recursion -/
def quickSortRec (key : α → Int) (rnd : Int → Int → Nat) : Nat → (Int → α) → Int → Int → Int → α
  | 0, a, _, _ => a
  | fuel + 1, a, low, high =>
    if low < high then
      let s := partitionRp key rnd a low high
      let a := quickSortRec key rnd fuel s.1 low (s.2 - 1)
      quickSortRec key rnd fuel a (s.2 + 1) high
    else a

/-- `quick_sort`, l.2822-2824, of an array with `n` elements -/
def quickSort (key : α → Int) (rnd : Int → Int → Nat) (a : Int → α) (n : Nat) : Int → α :=
  quickSortRec key rnd n a 0 (n - 1)

end

/-- `is_sorted`, l.2748-2757 -/
def isSorted : List Nat → Bool
  | a :: b :: l => if b < a then false else isSorted (b :: l)
  | _ => true

/-- `has_dupes_sorted`, l.2763-2772 -/
def hasDupesSorted : List Nat → Bool
  | a :: b :: l => if b = a then true else hasDupesSorted (b :: l)
  | _ => false

/-! ## compute_dst_coho_idx, l.2857-2983 -/

/-- The arguments that do not depend on the process: `ns_d`, `nt_d`, `nc_d`, `ns_s`, `nt_s` and the values of `cohort_index`
of each source face -/
structure CohoArg where
  nsD : Nat
  ntD : Nat
  ncD : Nat
  nsS : Nat
  ntS : Nat
  cohoS : Nat → List Nat

/-- One element of `coho_idx_dst`, `coho_idx_data_face` and `coho_idx_data_pos` -/
structure Coho where
  idx : Nat
  face : Nat
  pos : Nat
deriving DecidableEq, Inhabited

/-- The maps of one process: for place `nt_d * (is_d - isc_d) + it_d` the value of `land_idx_map_otn`, `none` where
`land_idx_map` is `-1`; for point `is_d - isc_d` the face and index of the nearest source point -/
structure CohoMap where
  otn : Nat → Option Nat
  idxMap : Nat → Nat
  faceMap : Nat → Nat

/-- The maps of the process with first point `o`, from those of the face -/
def CohoMap.part (ntD : Nat) (m : CohoMap) (o : Nat) : CohoMap where
  otn k := m.otn (ntD * o + k)
  idxMap i := m.idxMap (o + i)
  faceMap i := m.faceMap (o + i)

/-- The body of the loops of `compute_dst_coho_idx`, l.2882-2914, for cohort `ic`, tile `it` and point `isc + i` -/
def cohoBody (g : CohoArg) (m : CohoMap) (isc ic it i : Nat) : Option Coho :=
  match m.otn (g.ntD * i + it) with
  | none => none
  | some itSO =>
    let iSO := g.nsS * g.ntS * ic + g.nsS * itSO + m.idxMap i
    match binarySearch iSO (g.cohoS (m.faceMap i)) with
    | none => none
    | some pos => some { idx := g.nsD * g.ntD * ic + g.nsD * it + (isc + i), face := m.faceMap i, pos }

/-- The loops of l.2879-2917 for a process with `n` points -/
def cohoLoop (g : CohoArg) (m : CohoMap) (isc n : Nat) : List Coho :=
  (List.range g.ncD).flatMap fun ic => (List.range g.ntD).flatMap fun it =>
    (List.range n).filterMap fun i => cohoBody g m isc ic it i

/-- `compute_dst_coho_idx`: `none` for the error of l.2922 -/
def computeCoho (g : CohoArg) (m : CohoMap) (isc n : Nat) : Option (List Coho) :=
  let l := cohoLoop g m isc n
  if isSorted (l.map (·.idx)) && !hasDupesSorted (l.map (·.idx)) then some l else none

/-- `compute_dst_coho_idx_size`, l.2929-2981 -/
def computeCohoSize (g : CohoArg) (m : CohoMap) (n : Nat) : Nat :=
  (List.range g.ncD).foldl (init := 0) fun count ic => (List.range g.ntD).foldl (init := count) fun count it =>
    (List.range n).foldl (init := count) fun count i =>
      match m.otn (g.ntD * i + it) with
      | none => count
      | some itSO =>
        let iSO := g.nsS * g.ntS * ic + g.nsS * itSO + m.idxMap i
        match binarySearch iSO (g.cohoS (m.faceMap i)) with
        | none => count
        | some _ => count + 1

/-! ## gather_sort_compressed_int_data, l.2706-2721, and the variables on cohorts, l.1902-1988 -/

/-- `data_global` and `orig_pos_global` -/
def gatherSort (rnd : Int → Int → Nat) (parts : List (List Nat)) : List (Nat × Nat) :=
  let data := parts.flatten
  let pairs := data.zipIdx
  if isSorted data then pairs
  else (List.range data.length).map fun j : Nat =>
    quickSort (fun x : Nat × Nat => (x.1 : Int)) rnd (fun i => pairs[i.toNat]!) data.length (j : Int)

/-- What the root process writes for `cohort_index` and for a variable on cohorts, with the value `val face pos` in the source
file. `procs` lists the map, first point and number of points of each process. `none` for the errors of l.1560 and 2922. -/
def writeCoho {β : Type} [Inhabited β] (rnd : Int → Int → Nat) (g : CohoArg) (procs : List (CohoMap × Nat × Nat))
    (val : Nat → Nat → β) : Option (List (Nat × β)) := do
  let parts ← procs.mapM fun p => do
    let l ← computeCoho g p.1 p.2.1 p.2.2
    if l.length = computeCohoSize g p.1 p.2.2 then some l else none
  let sorted := gatherSort rnd (parts.map fun l => l.map (·.idx))
  let dst := (parts.map fun l => l.map fun c => val c.face c.pos).flatten
  some (sorted.map fun x => (x.1, dst[x.2]!))

end Verif.RemapLand
