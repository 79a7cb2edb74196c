import Verif.Spec.River
import Verif.Props.CubicHalo
/-
The halo of the river grid: which cell is seen at which place.
-/
namespace Verif.River
open Verif.Spec CheckMask

theorem copyLoop_nat {I V W : Type*} [DecidableEq I] (l : List (I × I)) (f : V → W) (w : I → V) (p : I) :
    copyLoop l (fun x => f (w x)) p = f (copyLoop l w p) := by
  induction l generalizing w with
  | nil => rfl
  | cons a l ih =>
    have := ih (fun x => if x = a.1 then w a.2 else w x)
    unfold copyLoop at this ⊢
    rw [List.foldl_cons, List.foldl_cons, ← this]
    have e : (fun x => if x = a.1 then (fun x => f (w x)) a.2 else (fun x => f (w x)) x) =
        fun x => f (if x = a.1 then w a.2 else w x) := by
      funext x
      split <;> rfl
    rw [e]

theorem copyLoop_append {I V : Type*} [DecidableEq I] (l l' : List (I × I)) (w : I → V) :
    copyLoop (l ++ l') w = copyLoop l' (copyLoop l w) := by
  unfold copyLoop; rw [List.foldl_append]

/-- The place whose value is found at `p` after the update. -/
def src (g : Grid) (p : Place) : Place := updateHalo g id p

theorem updateHalo_eq {V : Type*} (g : Grid) (w : Place → V) (p : Place) : updateHalo g w p = w (src g p) := by
  exact copyLoop_nat (haloCopies g) w id p

theorem inside_iff {g : Grid} {p : Place} : inside g p = true ↔ IsCell g p := by
  simp [inside, IsCell, and_assoc]

theorem mem_cells {g : Grid} {p : Place} : p ∈ cells g ↔ IsCell g p := by
  obtain ⟨t, i, j⟩ := p
  simp only [cells, List.mem_flatMap, List.mem_range, List.mem_map, Prod.mk.injEq, IsCell]
  constructor
  · rintro ⟨n, hn, j', hj, i', hi, rfl, rfl, rfl⟩
    exact ⟨hn, by omega, by omega, by omega, by omega⟩
  · rintro ⟨h1, h2, h3, h4, h5⟩
    exact ⟨t, h1, j - 1, by omega, i - 1, by omega, rfl, by omega, by omega⟩

/-! ### One tile -/

def xCopies (nx ny : Nat) : List (Place × Place) :=
  ((List.range ny).map (· + 1)).flatMap fun j => [((0, 0, j), (0, nx, j)), ((0, nx + 1, j), (0, 1, j))]

theorem mem_xCopies {nx ny : Nat} {p : Place × Place} : p ∈ xCopies nx ny ↔
    ∃ j, 1 ≤ j ∧ j ≤ ny ∧ (p = ((0, 0, j), (0, nx, j)) ∨ p = ((0, nx + 1, j), (0, 1, j))) := by
  simp only [xCopies, List.mem_flatMap, List.mem_map, List.mem_range, List.mem_cons, List.not_mem_nil, or_false]
  constructor
  · rintro ⟨j, ⟨a, ha, rfl⟩, h⟩; exact ⟨a + 1, by omega, by omega, h⟩
  · rintro ⟨j, h1, h2, h⟩; exact ⟨j, ⟨j - 1, by omega, by omega⟩, h⟩

/-- The place seen at `p` after the assignments for `X_CYCLIC`. -/
def srcX (nx ny : Nat) (p : Place) : Place :=
  if p.1 = 0 ∧ 1 ≤ p.2.2 ∧ p.2.2 ≤ ny ∧ p.2.1 = 0 then (0, nx, p.2.2)
  else if p.1 = 0 ∧ 1 ≤ p.2.2 ∧ p.2.2 ≤ ny ∧ p.2.1 = nx + 1 then (0, 1, p.2.2)
  else p

theorem copy_srcX (nx ny : Nat) (hnx : 1 ≤ nx) (p : Place) : copyLoop (xCopies nx ny) id p = srcX nx ny p := by
  have hsrc : ∀ p ∈ xCopies nx ny, ∀ q ∈ xCopies nx ny, p.1 ≠ q.2 := by
    intro p hp q hq
    obtain ⟨j, _, _, rfl | rfl⟩ := mem_xCopies.1 hp <;> obtain ⟨j', _, _, rfl | rfl⟩ := mem_xCopies.1 hq <;>
      simp <;> omega
  have hfun : ∀ p ∈ xCopies nx ny, ∀ q ∈ xCopies nx ny, p.1 = q.1 → p.2 = q.2 := by
    intro p hp q hq
    obtain ⟨j, _, _, rfl | rfl⟩ := mem_xCopies.1 hp <;> obtain ⟨j', _, _, rfl | rfl⟩ := mem_xCopies.1 hq <;>
      simp
  obtain ⟨t, i, j⟩ := p
  unfold srcX
  simp only
  split
  · next h =>
    obtain ⟨rfl, h1, h2, rfl⟩ := h
    exact copyLoop_get _ id hsrc hfun _ _ (mem_xCopies.2 ⟨j, h1, h2, .inl rfl⟩)
  · next h0 =>
    split
    · next h =>
      obtain ⟨rfl, h1, h2, rfl⟩ := h
      exact copyLoop_get _ id hsrc hfun _ _ (mem_xCopies.2 ⟨j, h1, h2, .inr rfl⟩)
    · next h =>
      refine copyLoop_other _ id _ fun q hq e => ?_
      obtain ⟨j', h1, h2, rfl | rfl⟩ := mem_xCopies.1 hq
      · simp only [Prod.mk.injEq] at e
        exact h0 ⟨e.1.symm, by omega, by omega, e.2.1.symm⟩
      · simp only [Prod.mk.injEq] at e
        exact h ⟨e.1.symm, by omega, by omega, e.2.1.symm⟩

def yCopies (nx ny : Nat) : List (Place × Place) :=
  ((List.range ny).map (· + 1)).flatMap fun i =>
      [(wrap nx (0, i, 0), wrap nx (0, i, ny)), (wrap nx (0, i, ny + 1), wrap nx (0, i, 1))]

theorem wrap_eq {nx i : Nat} (h : i < nx + 2) (j : Nat) : wrap nx (0, i, j) = (0, i, j) := by
  simp [wrap, Nat.mod_eq_of_lt h, Nat.div_eq_of_lt h]

theorem mem_yCopies {n : Nat} {p : Place × Place} : p ∈ yCopies n n ↔
    ∃ i, 1 ≤ i ∧ i ≤ n ∧ (p = ((0, i, 0), (0, i, n)) ∨ p = ((0, i, n + 1), (0, i, 1))) := by
  simp only [yCopies, List.mem_flatMap, List.mem_map, List.mem_range, List.mem_cons, List.not_mem_nil, or_false]
  constructor
  · rintro ⟨j, ⟨a, ha, rfl⟩, h⟩
    rw [wrap_eq (by omega), wrap_eq (by omega), wrap_eq (by omega), wrap_eq (by omega)] at h
    exact ⟨a + 1, by omega, by omega, h⟩
  · rintro ⟨j, h1, h2, h⟩
    refine ⟨j, ⟨j - 1, by omega, by omega⟩, ?_⟩
    rwa [wrap_eq (by omega), wrap_eq (by omega), wrap_eq (by omega), wrap_eq (by omega)]

def srcY (n : Nat) (p : Place) : Place :=
  if p.1 = 0 ∧ 1 ≤ p.2.1 ∧ p.2.1 ≤ n ∧ p.2.2 = 0 then (0, p.2.1, n)
  else if p.1 = 0 ∧ 1 ≤ p.2.1 ∧ p.2.1 ≤ n ∧ p.2.2 = n + 1 then (0, p.2.1, 1)
  else p

theorem copy_srcY (n : Nat) (p : Place) : copyLoop (yCopies n n) id p = srcY n p := by
  have hsrc : ∀ p ∈ yCopies n n, ∀ q ∈ yCopies n n, p.1 ≠ q.2 := by
    intro p hp q hq
    obtain ⟨j, _, _, rfl | rfl⟩ := mem_yCopies.1 hp <;> obtain ⟨j', _, _, rfl | rfl⟩ := mem_yCopies.1 hq <;>
      simp <;> omega
  have hfun : ∀ p ∈ yCopies n n, ∀ q ∈ yCopies n n, p.1 = q.1 → p.2 = q.2 := by
    intro p hp q hq
    obtain ⟨j, _, _, rfl | rfl⟩ := mem_yCopies.1 hp <;> obtain ⟨j', _, _, rfl | rfl⟩ := mem_yCopies.1 hq <;>
      simp
  obtain ⟨t, i, j⟩ := p
  unfold srcY
  simp only
  split
  · next h =>
    obtain ⟨rfl, h1, h2, rfl⟩ := h
    exact copyLoop_get _ id hsrc hfun _ _ (mem_yCopies.2 ⟨i, h1, h2, .inl rfl⟩)
  · next h0 =>
    split
    · next h =>
      obtain ⟨rfl, h1, h2, rfl⟩ := h
      exact copyLoop_get _ id hsrc hfun _ _ (mem_yCopies.2 ⟨i, h1, h2, .inr rfl⟩)
    · next h =>
      refine copyLoop_other _ id _ fun q hq e => ?_
      obtain ⟨j', h1, h2, rfl | rfl⟩ := mem_yCopies.1 hq
      · simp only [Prod.mk.injEq] at e
        exact h0 ⟨e.1.symm, by omega, by omega, e.2.2.symm⟩
      · simp only [Prod.mk.injEq] at e
        exact h ⟨e.1.symm, by omega, by omega, e.2.2.symm⟩

def cornerCopies (nx ny : Nat) : List (Place × Place) :=
  [((0, 0, 0), (0, 0, ny)), ((0, nx + 1, 0), (0, 1, ny)), ((0, nx + 1, ny + 1), (0, 1, 1)), ((0, 0, ny + 1), (0, nx, 1))]

def srcC (nx ny : Nat) (p : Place) : Place :=
  if p = (0, 0, 0) then (0, 0, ny)
  else if p = (0, nx + 1, 0) then (0, 1, ny)
  else if p = (0, nx + 1, ny + 1) then (0, 1, 1)
  else if p = (0, 0, ny + 1) then (0, nx, 1)
  else p

theorem copy_srcC (nx ny : Nat) (hx : 1 ≤ nx) (hy : 1 ≤ ny) (p : Place) :
    copyLoop (cornerCopies nx ny) id p = srcC nx ny p := by
  obtain ⟨t, i, j⟩ := p
  simp only [copyLoop, cornerCopies, List.foldl_cons, List.foldl_nil, srcC, Prod.mk.injEq, id]
  by_cases h1 : t = 0 <;> by_cases h2 : i = 0 <;> by_cases h3 : i = nx + 1 <;> by_cases h4 : j = 0 <;>
    by_cases h5 : j = ny + 1 <;> simp_all <;> omega

/-! ### The cube -/

theorem cubicCopies_eq (n t : Nat) (ht : t < 6) : cubicCopies 6 n n t = cubicLoop 6 n n t := by
  have : t = 0 ∨ t = 1 ∨ t = 2 ∨ t = 3 ∨ t = 4 ∨ t = 5 := by omega
  rcases this with rfl | rfl | rfl | rfl | rfl | rfl <;> simp [cubicCopies, cubicLoop]

/-- Places that exist in the arrays. -/
def InBox (g : Grid) (p : Place) : Prop := p.1 < g.ntiles ∧ p.2.1 ≤ g.nx + 1 ∧ p.2.2 ≤ g.ny + 1

theorem src_cube {g : Grid} (ho : g.op = ⟨false, false, true⟩) (ht : g.ntiles = 6) (hn : g.nx = g.ny) (p : Place) :
    src g p = updateCubicHalo 6 g.nx g.nx id p := by
  unfold src updateHalo haloCopies updateCubicHalo
  rw [ho, ht, ← hn]
  simp only [Bool.false_eq_true, if_false, false_and, List.nil_append, if_true]
  have : (List.range 6).flatMap (cubicCopies 6 g.nx g.nx) = (List.range 6).flatMap (cubicLoop 6 g.nx g.nx) := by
    apply List.flatMap_congr
    intro t ht
    exact cubicCopies_eq _ _ (by simpa using ht)
  rw [this]

theorem src_walls {g : Grid} (ho : g.op = ⟨false, false, false⟩) (p : Place) : src g p = p := by
  unfold src updateHalo haloCopies
  rw [ho]
  rfl

theorem src_x {g : Grid} (ho : g.op = ⟨true, false, false⟩) (hx : 1 ≤ g.nx) (p : Place) :
    src g p = srcX g.nx g.ny p := by
  rw [← copy_srcX _ _ hx]
  unfold src updateHalo haloCopies
  rw [ho]
  simp [xCopies]

theorem src_y {g : Grid} (ho : g.op = ⟨false, true, false⟩) (hn : g.nx = g.ny) (p : Place) :
    src g p = srcY g.nx p := by
  rw [← copy_srcY]
  unfold src updateHalo haloCopies
  rw [ho]
  simp [yCopies, hn]

theorem src_torus {g : Grid} (ho : g.op = ⟨true, true, false⟩) (hn : g.nx = g.ny) (hx : 1 ≤ g.nx) (p : Place) :
    src g p = srcX g.nx g.nx (srcY g.nx (srcC g.nx g.nx p)) := by
  rw [← copy_srcX _ _ hx, ← copy_srcY, ← copy_srcC _ _ hx hx]
  unfold src updateHalo
  have : haloCopies g = xCopies g.nx g.nx ++ (yCopies g.nx g.nx ++ cornerCopies g.nx g.nx) := by
    unfold haloCopies
    rw [ho]
    simp [xCopies, yCopies, cornerCopies, hn]
  rw [this, copyLoop_append, copyLoop_append]
  rw [show copyLoop (yCopies g.nx g.nx) (copyLoop (xCopies g.nx g.nx) (id : Place → Place)) = fun q =>
    copyLoop (xCopies g.nx g.nx) id (copyLoop (yCopies g.nx g.nx) id q) from by
      funext q; exact copyLoop_nat (yCopies g.nx g.nx) (copyLoop (xCopies g.nx g.nx) id) id q]
  exact copyLoop_nat (cornerCopies g.nx g.nx) (fun q =>
    copyLoop (xCopies g.nx g.nx) id (copyLoop (yCopies g.nx g.nx) id q)) id p

/-! ### Summary -/

theorem isAt_self {g : Grid} {c : Place} (hc : IsCell g c) : IsAt g c c :=
  ⟨hc, .inl ⟨rfl, .inl rfl, .inl rfl⟩⟩

theorem src_cell {g : Grid} (hg : MeshOk g) {c : Place} (hc : IsCell g c) : src g c = c := by
  obtain ⟨t, i, j⟩ := c
  obtain ⟨h0, h1, h2, h3, h4⟩ := hc
  simp only at h0 h1 h2 h3 h4
  rcases hg with h | ⟨h, ht⟩ | ⟨h, ht, hn⟩ | ⟨h, ht, hn⟩ | ⟨h, ht, hn⟩
  · exact src_walls h _
  · rw [src_x h (by omega)]
    unfold srcX
    rw [if_neg (by simp only; omega), if_neg (by simp only; omega)]
  · rw [src_y h hn]
    unfold srcY
    rw [if_neg (by simp only; omega), if_neg (by simp only; omega)]
  · rw [src_torus h hn (by omega)]
    have : srcC g.nx g.nx (t, i, j) = (t, i, j) := by
      unfold srcC
      simp only [Prod.mk.injEq]
      rw [if_neg (by omega), if_neg (by omega), if_neg (by omega), if_neg (by omega)]
    rw [this]
    have : srcY g.nx (t, i, j) = (t, i, j) := by
      unfold srcY
      rw [if_neg (by simp only; omega), if_neg (by simp only; omega)]
    rw [this]
    unfold srcX
    rw [if_neg (by simp only; omega), if_neg (by simp only; omega)]
  · rw [src_cube h ht hn]
    refine C39_rest _ _ _ _ _ fun s k k1 k2 e => ?_
    have := haloPlace_outside (n := g.nx) s k
    rw [← e] at this
    simp only at this
    omega

theorem isAt_flat {g : Grid} (hc : g.op.cubic = false) {p c : Place} : IsAt g p c ↔ IsCell g c ∧
    (p.1 = c.1 ∧
        (p.2.1 = c.2.1 ∨ g.op.xCyclic = true ∧ (p.2.1 = 0 ∧ c.2.1 = g.nx ∨ p.2.1 = g.nx + 1 ∧ c.2.1 = 1)) ∧
        (p.2.2 = c.2.2 ∨ g.op.yCyclic = true ∧ (p.2.2 = 0 ∧ c.2.2 = g.ny ∨ p.2.2 = g.ny + 1 ∧ c.2.2 = 1))) := by
  unfold IsAt
  simp [hc]

theorem isAt_iff {g : Grid} (hg : MeshOk g) {p c : Place} (hp : InBox g p) :
    IsAt g p c ↔ src g p = c ∧ IsCell g c := by
  rw [and_comm]
  by_cases hcc : IsCell g c
  swap
  · exact ⟨fun h => absurd h.1 hcc, fun h => absurd h.1 hcc⟩
  have hcell := hcc
  obtain ⟨t, i, j⟩ := p
  obtain ⟨t', i', j'⟩ := c
  obtain ⟨h0, h1, h2, h3, h4⟩ := hcc
  obtain ⟨b0, b1, b2⟩ := hp
  simp only at h0 h1 h2 h3 h4 b0 b1 b2
  rcases hg with h | ⟨h, ht⟩ | ⟨h, ht, hn⟩ | ⟨h, ht, hn⟩ | ⟨h, ht, hn⟩
  · rw [isAt_flat (by rw [h]), src_walls h, h]
    simp
  · rw [isAt_flat (by rw [h]), src_x h (by omega), h]
    simp only [hcell, true_and, srcX, Bool.false_eq_true, false_and, or_false]
    split
    · simp only [Prod.mk.injEq]; omega
    · split
      · simp only [Prod.mk.injEq]; omega
      · simp only [Prod.mk.injEq]; omega
  · rw [isAt_flat (by rw [h]), src_y h hn, h]
    simp only [hcell, true_and, srcY, Bool.false_eq_true, false_and, or_false]
    split
    · simp only [Prod.mk.injEq]; omega
    · split
      · simp only [Prod.mk.injEq]; omega
      · simp only [Prod.mk.injEq]; omega
  · rw [isAt_flat (by rw [h]), src_torus h hn (by omega), h]
    simp only [hcell, true_and]
    have e0 : t = 0 := by omega
    have e0' : t' = 0 := by omega
    subst e0 e0'
    rw [← hn] at b2 h4 ⊢
    clear hn
    have hi : i = 0 ∨ i = g.nx + 1 ∨ (1 ≤ i ∧ i ≤ g.nx) := by omega
    have hj : j = 0 ∨ j = g.nx + 1 ∨ (1 ≤ j ∧ j ≤ g.nx) := by omega
    have n0 : g.nx ≠ 0 := by omega
    have n1 : 1 ≤ g.nx := by omega
    rcases hi with rfl | rfl | ⟨i1, i2⟩ <;> rcases hj with rfl | rfl | ⟨j1, j2⟩
    · simp [srcC, srcY, srcX, n0, n1]; omega
    · simp [srcC, srcY, srcX, n0]; omega
    · simp [srcC, srcY, srcX, n0, j1, j2, show j ≠ 0 by omega, show j ≠ g.nx + 1 by omega]; omega
    · simp [srcC, srcY, srcX, n0]; omega
    · simp [srcC, srcY, srcX, n0]; omega
    · simp [srcC, srcY, srcX, n0, j1, j2, show j ≠ 0 by omega, show j ≠ g.nx + 1 by omega]; omega
    · simp [srcC, srcY, srcX, n0, i1, i2, show i ≠ 0 by omega, show i ≠ g.nx + 1 by omega]; omega
    · simp [srcC, srcY, srcX, n0, i1, i2, show i ≠ 0 by omega, show i ≠ g.nx + 1 by omega]; omega
    · simp [srcC, srcY, srcX, i1, i2, show i ≠ 0 by omega, show i ≠ g.nx + 1 by omega,
        j1, j2, show j ≠ 0 by omega, show j ≠ g.nx + 1 by omega]
  · rw [src_cube h ht hn]
    have hc6 : t' < 6 := by omega
    have ht6 : t < 6 := by omega
    simp only [hcell, true_and, IsAt, h, Bool.false_eq_true, false_and, or_false]
    by_cases hh : ∃ (s : CubeSide) (k : Nat), 1 ≤ k ∧ k ≤ g.nx ∧ (i, j) = s.haloPlace g.nx k
    · obtain ⟨s, k, k1, k2, e⟩ := hh
      rw [e, update_get g.nx id t ht6 s k k1 k2]
      obtain ⟨hv, hf⟩ := haloSource_valid s k1 k2 ht6
      obtain ⟨c1, c2⟩ := haloSource_corners s k1 k2 ht6
      constructor
      · rintro (⟨rfl, rfl, rfl⟩ | ⟨-, s', k', k1', k2', e', hne, x1, x2⟩)
        · exfalso
          have := haloPlace_outside (n := g.nx) s k
          rw [← e] at this
          simp only at this
          omega
        · have e3 : s.haloPlace g.nx k = s'.haloPlace g.nx k' := by simpa using e'
          obtain ⟨rfl, rfl⟩ := haloPlace_inj ⟨k1, k2⟩ ⟨k1', k2'⟩ e3
          have := haloSource_unique s k1 k2 ht6 ⟨t', i', j'⟩ ⟨hc6, h1, h2, h3, hn ▸ h4⟩ hne x1 x2
          rw [← this]
          rfl
      · intro he
        right
        have : haloSource g.nx t s k = ⟨t', i', j'⟩ := by
          simp only [id, CubeCell.place, Prod.mk.injEq] at he
          obtain ⟨rfl, rfl, rfl⟩ := he
          rfl
        rw [this] at hf c1 c2
        exact ⟨ht6, s, k, k1, k2, rfl, hf, c1, c2⟩
    · have hrest := C39_rest g.nx (id : Place → Place) t i j (fun s k k1 k2 e => hh ⟨s, k, k1, k2, e⟩)
      rw [hrest]
      constructor
      · rintro (⟨rfl, rfl, rfl⟩ | ⟨-, s', k', k1', k2', e', -⟩)
        · rfl
        · exact absurd ⟨s', k', k1', k2', e'⟩ hh
      · intro he
        simp only [id, Prod.mk.injEq] at he
        exact .inl he

end Verif.River
