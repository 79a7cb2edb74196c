import Verif.Lemmas.GpuXgrid
import Verif.Props.RowRange
/-
C124: the exchange grid of fregrid_gpu does not depend on the order in which the device works, stays inside its
arrays, and is the exchange grid of fregrid.

`create g pl b0 cnt0` is a run of the three parallel loops in the order `pl` on arrays that contain `b0` and
`cnt0` when they are allocated. `gpuList g` is the result of a plain double loop.
-/
namespace Verif.GpuXgrid
open Verif.Spec

variable {β : Type} (g : Job β)

theorem P_zero_iff : P (A g) g.hi = 0 ↔ ∀ ij1, active g ij1 = true → ∀ ij2 < g.n2, g.near ij1 ij2 = false := by
  unfold P
  rw [List.sum_eq_zero_iff]
  constructor
  · intro h ij1 ha ij2 hij
    have := h _ (List.mem_map.2 ⟨ij1, List.mem_range.2 (active_lt ha), rfl⟩)
    unfold A nearCount at this
    rw [if_pos ha, List.length_eq_zero_iff, List.filter_eq_nil_iff] at this
    simpa using this ij2 (List.mem_range.2 hij)
  · intro h x hx
    obtain ⟨k, _, rfl⟩ := List.mem_map.1 hx
    unfold A nearCount
    by_cases ha : active g k = true
    · rw [if_pos ha, List.length_eq_zero_iff, List.filter_eq_nil_iff]
      intro ij2 hij
      rw [h k ha ij2 (List.mem_range.1 hij)]
      simp
    · rw [if_neg ha]

/-- C124. If at least one pair of cells is close, then for every order of execution the result is the list of
exchange cells in the order of a plain double loop, and no access is outside an array. Missing: arrays whose unused
entries are not zero, see `C124_uninit_wrong`. -/
theorem C124_partial {pl : Plan} (hc : Complete g pl) (hh : g.hi ≤ g.n1) {b0 : Bounds} (hb0 : b0.up = 0)
    {cnt0 : Nat → Int} (hcl : Clean g b0 cnt0)
    (hne : ∃ ij1, active g ij1 = true ∧ ∃ ij2 < g.n2, g.near ij1 ij2 = true) :
    create g pl b0 cnt0 = .ok (some ((gpuList g).map some)) := by
  rw [create_eq hc hh hb0 hcl, if_neg]
  rw [P_zero_iff]
  obtain ⟨ij1, ha, ij2, hij, hn⟩ := hne
  intro h
  rw [h ij1 ha ij2 hij] at hn
  cases hn

/-- C124. When all source cells are processed nothing is asked of the first contents of the arrays: two runs give the
same result whatever the order of execution and whatever the arrays contained. -/
theorem C124_schedule {pl pl' : Plan} (hc : Complete g pl) (hc' : Complete g pl') (hh : g.hi = g.n1) (hl : g.lo = 0)
    (hm : ∀ ij1, g.mask ij1 = true) {b0 b0' : Bounds} (hb0 : b0.up = 0) (hb0' : b0'.up = 0) (cnt0 cnt0' : Nat → Int) :
    create g pl b0 cnt0 = create g pl' b0' cnt0' := by
  have hcl : ∀ (b : Bounds) (c : Nat → Int), Clean g b c := by
    intro b c ij1 h1 h2
    simp [active, hl, hh, h1, hm] at h2
  rw [create_eq hc (by omega) hb0 (hcl _ _), create_eq hc' (by omega) hb0' (hcl _ _)]

/-! ### The result of the CPU version -/

theorem flatMap_divmod {α : Type} (f : Nat → Nat → List α) (nx : Nat) : ∀ ny : Nat,
    (List.range (nx * ny)).flatMap (fun k => f (k % nx) (k / nx)) =
      (List.range ny).flatMap fun j => (List.range nx).flatMap fun i => f i j
  | 0 => by simp
  | ny + 1 => by
    rw [Nat.mul_succ, List.range_add, List.flatMap_append, flatMap_divmod f nx ny, List.range_succ,
      List.flatMap_append, List.flatMap_cons, List.flatMap_nil, List.append_nil, List.flatMap_map]
    congr 1
    apply List.flatMap_congr
    intro i hi
    have hi := List.mem_range.1 hi
    rw [Nat.mul_add_mod, Nat.mod_eq_of_lt hi, Nat.mul_add_div (by omega), Nat.div_eq_of_lt hi, Nat.add_zero]

section cpu
variable {K : Type} [LinearOrder K] (p : RowRange.Pair K β)

theorem gpuList_pair (r : Int × Int) (hr : 0 ≤ r.1) (hr2 : r.2 ≤ (p.ny1 : Int) - 1)
    (h : ∀ j < p.ny1, ((j : Int) < r.1 ∨ r.2 < (j : Int)) → ∀ i < p.nx1, ∀ ij < p.nx2 * p.ny2,
      RowRange.near p i j ij = false) :
    (jobOf p r).hi ≤ (jobOf p r).n1 ∧ (gpuList (jobOf p r)).map (toCell p.nx1 p.nx2) = pairList p := by
  have hh : (jobOf p r).hi ≤ (jobOf p r).n1 := by
    show (r.2 + 1).toNat * p.nx1 ≤ p.nx1 * p.ny1
    rw [Nat.mul_comm]
    exact Nat.mul_le_mul_left _ (by omega)
  refine ⟨hh, ?_⟩
  rw [gpuList_eq hh, List.map_flatMap]
  unfold pairList
  rw [← flatMap_divmod]
  apply List.flatMap_congr
  intro k hk
  have hk : k < p.nx1 * p.ny1 := List.mem_range.1 hk
  have hnx : 0 < p.nx1 := by
    rcases Nat.eq_zero_or_pos p.nx1 with h0 | h0
    · rw [h0] at hk; omega
    · exact h0
  have hj : k / p.nx1 < p.ny1 := Nat.div_lt_of_lt_mul hk
  have hi : k % p.nx1 < p.nx1 := Nat.mod_lt _ hnx
  unfold W
  by_cases ha : active (jobOf p r) k = true
  · rw [if_pos ha, List.map_filterMap]
    apply List.filterMap_congr
    intro ij _
    show Option.map _ (if RowRange.near p (k % p.nx1) (k / p.nx1) ij = true then _ else none) =
      Option.map _ (RowRange.hit p (k % p.nx1) (k / p.nx1) ij)
    unfold RowRange.hit
    by_cases hn : RowRange.near p (k % p.nx1) (k / p.nx1) ij = true
    · rw [if_pos hn, if_pos hn, Option.map_map]
      rfl
    · rw [if_neg hn, if_neg hn]
      rfl
  · rw [if_neg ha, List.map_nil]
    symm
    rw [List.filterMap_eq_nil_iff]
    intro ij hij
    have hij := List.mem_range.1 hij
    unfold RowRange.hit
    rw [h _ hj ?_ _ hi _ hij]
    · rfl
    · by_contra hc
      apply ha
      have e : active (jobOf p r) k = (decide (r.1.toNat * p.nx1 ≤ k) && decide (k < (r.2 + 1).toNat * p.nx1) && true) := rfl
      rw [e, Bool.and_true, Bool.and_eq_true, decide_eq_true_eq, decide_eq_true_eq]
      constructor
      · have : r.1.toNat ≤ k / p.nx1 := by omega
        exact (Nat.le_div_iff_mul_le hnx).1 this
      · exact (Nat.div_lt_iff_lt_mul hnx).1 (by omega)

end cpu

/-- C124. The exchange grid of fregrid_gpu for a pair of tiles is, cell by cell and in the same order, that of
fregrid (with one thread; with more threads fregrid has the same cells in another order, `C123_setup`). Missing: target
grids on both sides of the equator, see `C123_gpu_wrong`, and arrays whose unused entries are not zero. -/
theorem C124_cpu_partial {K : Type} [Field K] [LinearOrder K] [IsStrictOrderedRing K] [FloorRing K]
    (p : RowRange.Pair K β) (h1 : 0 ≤ RowRange.yMin p ∨ ∃ n : Int, RowRange.yMin p = n)
    (h2 : RowRange.yMax p ≤ 0 ∨ ∃ n : Int, RowRange.yMax p = n) {pl : Plan}
    (hc : Complete (jobOf p (RowRange.rowsGpu p)) pl) {b0 : Bounds} (hb0 : b0.up = 0) {cnt0 : Nat → Int}
    (hcl : Clean (jobOf p (RowRange.rowsGpu p)) b0 cnt0) {out : List (Option (Rec β))}
    (h : create (jobOf p (RowRange.rowsGpu p)) pl b0 cnt0 = .ok (some out)) :
    out.map (Option.map (toCell p.nx1 p.nx2)) = (pairList p).map some := by
  obtain ⟨hh, hl⟩ := gpuList_pair p (RowRange.rowsGpu p)
    (by unfold RowRange.rowsGpu RowRange.clampRows; dsimp only; omega)
    (by unfold RowRange.rowsGpu RowRange.clampRows; dsimp only; omega)
    (fun j hj ho i hi ij hij => RowRange.near_outside p (RowRange.toInt_le h1) (RowRange.le_toInt h2) hi hj hij ho)
  rw [create_eq hc hh hb0 hcl] at h
  split at h
  · cases h
  · injection h with h
    injection h with h
    subst h
    rw [← hl, List.map_map, List.map_map]
    rfl

/-! ### What goes wrong -/

/-- C124. If no pair of cells is close, the routine returns before it sets the number of exchange cells of the tile:
the remapping then uses whatever the allocated memory contained. -/
theorem C124_empty_wrong {pl : Plan} (hc : Complete g pl) (hh : g.hi ≤ g.n1) {b0 : Bounds} (hb0 : b0.up = 0)
    {cnt0 : Nat → Int} (hcl : Clean g b0 cnt0) (hne : ∀ ij1, active g ij1 = true → ∀ ij2 < g.n2, g.near ij1 ij2 = false) :
    gpuList g = [] ∧ create g pl b0 cnt0 = .ok none := by
  have hP := (P_zero_iff g).2 hne
  refine ⟨?_, by rw [create_eq hc hh hb0 hcl, if_pos hP]⟩
  rw [gpuList_eq hh, List.flatMap_eq_nil_iff]
  intro k _
  apply List.eq_nil_of_length_eq_zero
  have := W_length_le g k
  rcases Nat.lt_or_ge k g.hi with hk | hk
  · have hm := P_mono (A g) (show k + 1 ≤ g.hi from hk)
    rw [P_succ] at hm
    omega
  · unfold W
    rw [if_neg]
    · rfl
    · intro ha
      have := active_lt ha
      omega

theorem run_oob {b : Bounds} (hb : ∀ k, active g k = true → b.up ≤ before b.approx k) :
    ∀ (l : List Nat) (s : St β), (∀ k, s.todo k ≠ [] → active g k = true) → (∃ m ∈ l, s.todo m ≠ []) →
      run b l s = .error .oob
  | [], _, _, h => by simp at h
  | m :: l, s, ha, h => by
    by_cases hm : s.todo m = []
    · have : step b s m = .ok s := by unfold step; rw [hm]
      simp only [run, this]
      refine run_oob hb l s ha ?_
      obtain ⟨k, hk, hne⟩ := h
      rcases List.mem_cons.1 hk with rfl | hk
      · exact absurd hm hne
      · exact ⟨k, hk, hne⟩
    · have : step b s m = .error .oob := by
        unfold step
        rcases ht : s.todo m with _ | ⟨c, cs⟩
        · exact absurd ht hm
        · dsimp only
          rw [if_neg]
          have := hb m (ha m hm)
          omega
      simp only [run, this]
      rfl

/-- C124. The entries for the rows before the first row searched are never set, but the place of every exchange cell
is computed from them: if the memory contains a number not smaller than the number of close pairs, every order of
execution writes outside the arrays. -/
theorem C124_uninit_wrong {pl : Plan} (hc : Complete g pl) (hl : 0 < g.lo) {b0 : Bounds} (hb0 : b0.up = 0)
    (cnt0 : Nat → Int) (hpos : ∀ k, 0 ≤ b0.approx k) (hbig : ((P (A g) g.hi : Nat) : Int) ≤ b0.approx 0)
    (hne : ∃ ij1, W g ij1 ≠ []) : create g pl b0 cnt0 = .error .oob := by
  have hb := boundsOK hc b0
  have hupd : create g pl b0 cnt0 = create g pl b0 cnt0 := rfl
  unfold create at hupd ⊢
  generalize upbound g pl.order pl.inner b0 = b at hb hupd
  clear hupd
  dsimp only
  have hup : b.up = ((P (A g) g.hi : Nat) : Int) := by rw [hb.up, hb0]; omega
  obtain ⟨m, hm⟩ := hne
  have hWact : ∀ k, W g k ≠ [] → active g k = true := by
    intro k hk
    by_contra hc'
    apply hk
    unfold W
    rw [if_neg hc']
  have hma := hWact m hm
  have hlen : 0 < (W g m).length := List.length_pos_iff.2 hm
  have hA := W_length_le g m
  have hmono := P_mono (A g) (show m + 1 ≤ g.hi from active_lt hma)
  rw [P_succ] at hmono
  have hn2 : 0 < g.n2 := by
    rcases Nat.eq_zero_or_pos g.n2 with h | h
    · exfalso
      unfold A nearCount at hA
      rw [h] at hA
      simp at hA
      exact hm hA
    · exact h
  rw [if_neg (by omega)]
  have happ : ∀ k, 0 ≤ b.approx k := by
    intro k
    rw [hb.approx]
    split
    · omega
    · exact hpos k
  have h0 : b.approx 0 = b0.approx 0 := by
    rw [hb.approx, if_neg]
    simp only [active, Bool.and_eq_true, decide_eq_true_eq]
    omega
  have hbef : ∀ k, 0 < k → b.approx 0 ≤ before b.approx k := by
    intro k
    induction k with
    | zero => intro h; omega
    | succ k ih =>
      intro _
      unfold before at ih ⊢
      rw [List.range_succ, List.map_append, List.sum_append, List.map_singleton, List.sum_singleton]
      rcases Nat.eq_zero_or_pos k with rfl | hk
      · simp
      · have := ih hk
        have := happ k
        omega
  rw [run_oob g (b := b)]
  · intro k ha
    have hk : 0 < k := by
      simp only [active, Bool.and_eq_true, decide_eq_true_eq] at ha
      omega
    have := hbef k hk
    omega
  · intro k hk
    dsimp only at hk
    rw [hb.work hn2 k] at hk
    exact hWact k hk
  · refine ⟨m, ?_, ?_⟩
    · rw [← List.count_pos_iff]
      simp only [active, Bool.and_eq_true, decide_eq_true_eq] at hma
      have := hc.sched m hma.1.1 hma.1.2
      omega
    · dsimp only
      rw [hb.work hn2 m]
      exact hm

/-! ### Examples -/

/-- Three source cells, two target cells; source cell 1 is close to both but has a common part with target cell 1
only. -/
def gxJob : Job Nat where
  n1 := 3
  n2 := 2
  lo := 0
  hi := 3
  mask := fun _ => true
  near := fun a b => decide (a ≤ b + 1)
  clip := fun a b => if a = 1 ∧ b = 0 then none else some (10 * a + b)

/-- Everything backwards. -/
def gxPlan : Plan where
  order := [2, 0, 1]
  inner := fun _ => [1, 0]
  sched := [2, 1, 2, 0, 1, 0]
  copyOrder := List.reverse

def gxBounds : Bounds := ⟨fun _ => 77, fun _ => -5, fun _ => 99, 0⟩

theorem gxComplete : Complete gxJob gxPlan where
  order := by decide
  inner := fun _ => (show ([1, 0] : List Nat).Perm [0, 1] by decide)
  sched := by
    intro ij1 _ h
    have : ∀ k < 3, 2 ≤ gxPlan.sched.count k := by decide
    exact this ij1 h
  copies := fun l => List.reverse_perm l

example : create gxJob gxPlan gxBounds (fun _ => 1234) =
    .ok (some [some ⟨0, 0, 0⟩, some ⟨0, 1, 1⟩, some ⟨1, 1, 11⟩, some ⟨2, 1, 21⟩]) := by
  rw [C124_partial gxJob gxComplete (by decide) rfl (by
    intro ij1 h1 h2
    have : ∀ k < 3, active gxJob k = true := by decide
    rw [this ij1 h1] at h2
    cases h2) ⟨0, by decide, 0, by decide, by decide⟩]
  decide +kernel

/-- Only source cells 1 and 2 are searched, and the memory contains 77: the hypotheses of `C124_uninit_wrong`. -/
def gxLater : Job Nat := { gxJob with lo := 1 }

def gxPlanLater : Plan := { gxPlan with order := [2, 1], sched := [2, 1, 2, 1] }

example : create gxLater gxPlanLater gxBounds (fun _ => 0) = .error .oob := by
  refine C124_uninit_wrong gxLater ⟨by decide, fun _ => (show ([1, 0] : List Nat).Perm [0, 1] by decide), ?_, fun l => List.reverse_perm l⟩ (by decide) rfl _
    (fun _ => (show (0 : Int) ≤ 77 by decide)) (by decide +kernel) ⟨2, by decide +kernel⟩
  intro ij1 h0 h
  have : ∀ k < 3, 1 ≤ k → 2 ≤ gxPlanLater.sched.count k := by decide
  exact this ij1 h h0

/-- `C124_cpu_partial` for the grids of `rrTropics`: rows 6 to 10 are searched, backwards. -/
def gxRows : Plan where
  order := (List.range' 6 5).reverse
  inner := fun _ => [0]
  sched := (List.range' 6 5).reverse
  copyOrder := List.reverse

example : RowRange.rowsGpu RowRange.rrTropics = (6, 10) ∧
    (create (jobOf RowRange.rrTropics (RowRange.rowsGpu RowRange.rrTropics)) gxRows ⟨fun _ => 0, fun _ => 9, fun _ => 9, 0⟩
      (fun _ => 0)).toOption =
      some (some [some ⟨7, 0, ()⟩, some ⟨8, 0, ()⟩, some ⟨9, 0, ()⟩]) := by
  decide +kernel

example : Complete (jobOf RowRange.rrTropics (RowRange.rowsGpu RowRange.rrTropics)) gxRows where
  order := by
    have : RowRange.rowsGpu RowRange.rrTropics = (6, 10) := by decide +kernel
    rw [this]
    decide
  inner := fun _ => (show ([0] : List Nat).Perm [0] by decide)
  sched := by
    have : RowRange.rowsGpu RowRange.rrTropics = (6, 10) := by decide +kernel
    rw [this]
    intro ij1 h0 h
    have : ∀ k < 11, 6 ≤ k → 1 ≤ gxRows.sched.count k := by decide
    exact this ij1 h h0
  copies := fun l => List.reverse_perm l

end Verif.GpuXgrid
