import Verif.Lemmas.RiverFlow
import Mathlib.Tactic.SplitIfs
/-
Which neighbours of a cell flow into it.
-/
namespace Verif.River
open Verif.Spec CheckMask

/-- The place seen at `p` on the cube. -/
def cubeSrc (n : Nat) (p : Place) : Place :=
  if p.2.1 = 0 ∧ 1 ≤ p.2.2 ∧ p.2.2 ≤ n then CubeCell.place (haloSource n p.1 .west p.2.2)
  else if p.2.1 = n + 1 ∧ 1 ≤ p.2.2 ∧ p.2.2 ≤ n then CubeCell.place (haloSource n p.1 .east p.2.2)
  else if p.2.2 = 0 ∧ 1 ≤ p.2.1 ∧ p.2.1 ≤ n then CubeCell.place (haloSource n p.1 .south p.2.1)
  else if p.2.2 = n + 1 ∧ 1 ≤ p.2.1 ∧ p.2.1 ≤ n then CubeCell.place (haloSource n p.1 .north p.2.1)
  else p

theorem src_cubeSrc {g : Grid} (ho : g.op = ⟨false, false, true⟩) (ht : g.ntiles = 6) (hn : g.nx = g.ny) {p : Place}
    (hp : p.1 < 6) : src g p = cubeSrc g.nx p := by
  rw [src_cube ho ht hn]
  obtain ⟨t, i, j⟩ := p
  simp only at hp
  unfold cubeSrc
  simp only
  split
  · next h => obtain ⟨rfl, h1, h2⟩ := h; exact update_get g.nx id t hp .west j h1 h2
  split
  · next h => obtain ⟨rfl, h1, h2⟩ := h; exact update_get g.nx id t hp .east j h1 h2
  split
  · next h => obtain ⟨rfl, h1, h2⟩ := h; exact update_get g.nx id t hp .south i h1 h2
  split
  · next h => obtain ⟨rfl, h1, h2⟩ := h; exact update_get g.nx id t hp .north i h1 h2
  · next h1 h2 h3 h4 =>
    refine C39_rest g.nx id t i j fun s k k1 k2 e => ?_
    cases s <;> simp only [CubeSide.haloPlace, Prod.mk.injEq] at e <;> omega

theorem dest_nat (p : Place) {k : Nat} (hk : k < 8) :
    dest p (k : Int) = (p.1, ((p.2.1 : Int) + (compass k).1).toNat, ((p.2.2 : Int) + (compass k).2).toNat) := by
  rw [compass_di k hk]; rfl

/-- The direction seen from the other face. -/
def turned (t : Nat) (s : CubeSide) (k : Nat) : Nat :=
  match s with
  | .west => if t % 2 = 0 then (k + 2) % 8 else k
  | .east => if t % 2 = 1 then (k + 2) % 8 else k
  | .south => if t % 2 = 1 then (k + 6) % 8 else k
  | .north => if t % 2 = 0 then (k + 6) % 8 else k

theorem turned_lt (t : Nat) (s : CubeSide) {k : Nat} (hk : k < 8) : turned t s k < 8 := by
  cases s <;> unfold turned <;> simp only <;> split <;> omega

theorem rotated_halo {g : Grid} (ho : g.op.cubic = true) (hn : g.nx = g.ny) (t : Nat) (s : CubeSide) {j : Nat} (h1 : 1 ≤ j)
    (h2 : j ≤ g.nx) (k : Nat) : rotated g (t, s.haloPlace g.nx j) (k : Int) = (turned t s k : Nat) := by
  have h3 : j ≠ 0 := by omega
  have h4 : j ≠ g.ny + 1 := by omega
  have h5 : j ≠ g.nx + 1 := by omega
  have h6 : (0 : Nat) ≠ g.nx + 1 := by omega
  cases s <;> simp only [rotated, ho, CubeSide.haloPlace, turned, if_true, h3, h4, h5, h6, if_false, hn] <;>
    simp <;> (try split) <;> simp
  all_goals omega

set_option maxHeartbeats 1000000 in
/-- Across the sides of the cube: a step with the turned direction from the halo leads to the same cell. -/
theorem cube_step (n t : Nat) (ht : t < 6) (s : CubeSide) (j : Nat) (h1 : 1 ≤ j) (h2 : j ≤ n) (k : Nat) (hk : k < 8)
    (x y : Nat) (hx : 1 ≤ x ∧ x ≤ n) (hy : 1 ≤ y ∧ y ≤ n) :
    dest (t, s.haloPlace n j) (turned t s k : Nat) = (t, x, y) ↔
      cubeSrc n (dest (CubeCell.place (haloSource n t s j)) (k : Int)) = (t, x, y) := by
  rw [dest_nat _ (turned_lt t s hk), dest_nat _ hk]
  have hT : t = 0 ∨ t = 1 ∨ t = 2 ∨ t = 3 ∨ t = 4 ∨ t = 5 := by omega
  have hK : k = 0 ∨ k = 1 ∨ k = 2 ∨ k = 3 ∨ k = 4 ∨ k = 5 ∨ k = 6 ∨ k = 7 := by omega
  rcases hT with rfl | rfl | rfl | rfl | rfl | rfl <;> cases s <;>
    rcases hK with rfl | rfl | rfl | rfl | rfl | rfl | rfl | rfl <;>
    simp [turned, compass, haloSource, CubeCell.place, CubeSide.haloPlace, cubeSrc] <;>
    (split_ifs <;> simp <;> omega)

theorem opposite : ∀ k, k < 8 → ∃ o ∈ offsets, compass k = (1 - (o.1 : Int), 1 - (o.2 : Int)) := by
  decide +kernel

theorem around_inj {g : Grid} {c : Place} (hc : IsCell g c) {o o' : Nat × Nat} (h : around c o = around c o') :
    o = o' := by
  obtain ⟨a, b⟩ := o
  obtain ⟨a', b'⟩ := o'
  simp only [around, Prod.mk.injEq] at h ⊢
  omega

/-- The place from which a step leads to `c`. -/
theorem dest_around {g : Grid} {c p : Place} (hc : IsCell g c) {k : Nat} (hk : k < 8) {o : Nat × Nat}
    (ho : compass k = (1 - (o.1 : Int), 1 - (o.2 : Int))) : dest p (k : Int) = c ↔ p = around c o := by
  rw [dest_nat _ hk, ho]
  obtain ⟨t, i, j⟩ := p
  obtain ⟨t', x, y⟩ := c
  obtain ⟨-, h1, h2, h3, h4⟩ := hc
  simp only [around, Prod.mk.injEq] at *
  omega

theorem dest_inBox {g : Grid} {q : Place} (hq : IsCell g q) {k : Nat} (hk : k < 8) : InBox g (dest q (k : Int)) := by
  rw [dest_nat _ hk]
  obtain ⟨b1, b2, b3, b4⟩ := compass_bound k hk
  obtain ⟨h0, h1, h2, h3, h4⟩ := hq
  exact ⟨h0, by simp only; omega, by simp only; omega⟩

/-! ### Tiles without contacts and cyclic tiles -/

theorem flat_step {g : Grid} (hg : MeshOk g) (hf : g.op.cubic = false) {c : Place} (hc : IsCell g c)
    {p q : Place} (hp : InBox g p) (hq : IsCell g q) (hs : src g p = q) (hpc : p.1 = c.1) {k : Nat} (hk : k < 8) :
    dest p (k : Int) = c → src g (dest q (k : Int)) = c := by
  have h1 := ((isAt_flat hf).1 ((isAt_iff hg hp).2 ⟨hs, hq⟩)).2
  have h2 : src g (dest q (k : Int)) = c ↔ IsAt g (dest q (k : Int)) c :=
    ⟨fun h => (isAt_iff hg (dest_inBox hq hk)).2 ⟨h, hc⟩, fun h => ((isAt_iff hg (dest_inBox hq hk)).1 h).1⟩
  rw [h2, isAt_flat hf, dest_nat _ hk, dest_nat _ hk]
  have hc' := hc
  obtain ⟨b1, b2, b3, b4⟩ := compass_bound k hk
  obtain ⟨p0, p1, p2⟩ := hp
  obtain ⟨q0, q1, q2, q3, q4⟩ := hq
  obtain ⟨c0, c1, c2, c3, c4⟩ := hc
  obtain ⟨t, i, j⟩ := p
  obtain ⟨t', a, b⟩ := q
  obtain ⟨t'', x, y⟩ := c
  simp only [Prod.mk.injEq] at *
  simp only [hc', true_and]
  generalize (compass k).1 = u at *
  generalize (compass k).2 = v at *
  cases hX : g.op.xCyclic <;> cases hY : g.op.yCyclic <;> simp only [hX, hY, Bool.false_eq_true, false_and, or_false,
    true_and] at h1 ⊢ <;> omega

theorem flat_exists {g : Grid} (hg : MeshOk g) (hf : g.op.cubic = false) {c q : Place} (hc : IsCell g c)
    (hq : IsCell g q) {k : Nat} (hk : k < 8) (h : src g (dest q (k : Int)) = c) :
    ∃ o ∈ offsets, src g (around c o) = q ∧ dest (around c o) (k : Int) = c := by
  obtain ⟨o, ho, he⟩ := opposite k hk
  refine ⟨o, ho, ?_, (dest_around hc hk he).2 rfl⟩
  have h1 := ((isAt_flat hf).1 ((isAt_iff hg (dest_inBox hq hk)).2 ⟨h, hc⟩)).2
  refine ((isAt_iff hg (around_inBox hc ho)).1 ((isAt_flat hf).2 ⟨hq, ?_⟩)).1
  rw [dest_nat _ hk, he] at h1
  obtain ⟨q0, q1, q2, q3, q4⟩ := hq
  obtain ⟨c0, c1, c2, c3, c4⟩ := hc
  obtain ⟨u, v⟩ := o
  obtain ⟨b1, b2⟩ := offsets_bound _ ho
  obtain ⟨t', a, b⟩ := q
  obtain ⟨t'', x, y⟩ := c
  simp only [around] at *
  cases hX : g.op.xCyclic <;> cases hY : g.op.yCyclic <;> simp only [hX, hY, Bool.false_eq_true, false_and, or_false,
    true_and] at h1 ⊢ <;> omega

/-! ### The cube -/

section cube
variable {g : Grid} (ho : g.op = ⟨false, false, true⟩) (ht : g.ntiles = 6) (hn : g.nx = g.ny)
include ho ht hn

/-- The places around the cells of a face of the cube. -/
theorem cube_place {p : Place} (hp : InBox g p) (hs : IsCell g (src g p)) :
    (IsCell g p ∧ src g p = p) ∨ ∃ (s : CubeSide) (j : Nat), 1 ≤ j ∧ j ≤ g.nx ∧ p = (p.1, s.haloPlace g.nx j) ∧
      src g p = CubeCell.place (haloSource g.nx p.1 s j) ∧ (src g p).1 ≠ p.1 := by
  have hp6 : p.1 < 6 := by have := hp.1; omega
  obtain ⟨p0, p1, p2⟩ := hp
  rw [src_cubeSrc ho ht hn hp6] at hs ⊢
  obtain ⟨t, i, j⟩ := p
  simp only at p0 p1 p2 hp6
  unfold cubeSrc at hs ⊢
  simp only at hs ⊢
  split
  · next h => obtain ⟨rfl, h1, h2⟩ := h; exact .inr ⟨.west, j, h1, h2, rfl, rfl, (haloSource_valid .west h1 h2 hp6).2⟩
  next n1 =>
  rw [if_neg n1] at hs
  split
  · next h => obtain ⟨rfl, h1, h2⟩ := h; exact .inr ⟨.east, j, h1, h2, rfl, rfl, (haloSource_valid .east h1 h2 hp6).2⟩
  next n2 =>
  rw [if_neg n2] at hs
  split
  · next h => obtain ⟨rfl, h1, h2⟩ := h; exact .inr ⟨.south, i, h1, h2, rfl, rfl, (haloSource_valid .south h1 h2 hp6).2⟩
  next n3 =>
  rw [if_neg n3] at hs
  split
  · next h =>
    obtain ⟨rfl, h1, h2⟩ := h
    exact .inr ⟨.north, i, h1, h2, rfl, rfl, (haloSource_valid .north h1 h2 hp6).2⟩
  next n4 =>
  rw [if_neg n4] at hs
  exact .inl ⟨hs, rfl⟩

theorem rotated_cell {p : Place} (hp : IsCell g p) (k : Int) : rotated g p k = k := by
  obtain ⟨h0, h1, h2, h3, h4⟩ := hp
  unfold rotated
  rw [if_pos (by rw [ho]), if_neg (by omega), if_neg (by omega), if_neg (by omega), if_neg (by omega)]

theorem cube_iff (hg : MeshOk g) {c p : Place} (hc : IsCell g c) (hp : InBox g p) (hpc : p.1 = c.1)
    (hs : IsCell g (src g p)) {k : Nat} (hk : k < 8) :
    (∃ k' : Nat, k' < 8 ∧ rotated g p (k : Int) = k') ∧
    (dest p (rotated g p (k : Int)) = c ↔ src g (dest (src g p) (k : Int)) = c) := by
  rcases cube_place ho ht hn hp hs with ⟨h1, h2⟩ | ⟨s, j, j1, j2, h1, h2, h3⟩
  · rw [rotated_cell ho ht hn h1, h2]
    refine ⟨⟨k, hk, rfl⟩, ?_⟩
    constructor
    · rintro rfl
      exact src_cell hg hc
    · intro h
      rcases cube_place ho ht hn (dest_inBox h1 hk) (by rw [h]; exact hc) with ⟨-, h4⟩ | ⟨s, j, -, -, -, -, h5⟩
      · rw [← h4, h]
      · rw [h] at h5
        exact absurd hpc.symm h5
  · have hp6 : p.1 < 6 := by have := hp.1; omega
    have hd6 : (haloSource g.nx p.1 s j).face < 6 := (haloSource_valid s j1 j2 hp6).1.1
    have hr : rotated g p (k : Int) = (turned p.1 s k : Nat) := by
      have := rotated_halo (g := g) (by rw [ho]) hn p.1 s j1 j2 k
      rwa [← h1] at this
    rw [hr]
    refine ⟨⟨_, turned_lt _ _ hk, rfl⟩, ?_⟩
    rw [h2, src_cubeSrc ho ht hn (by rw [dest_nat _ hk]; exact hd6)]
    obtain ⟨c0, c1, c2, c3, c4⟩ := hc
    have := cube_step g.nx p.1 hp6 s j j1 j2 k hk c.2.1 c.2.2 ⟨c1, c2⟩ ⟨c3, by omega⟩
    rw [← h1, show ((p.1, c.2.1, c.2.2) : Place) = c by rw [hpc]] at this
    exact this

/-- Seen from the other face: the place beside a cell at a side. -/
theorem cube_back {q : Place} (hq : IsCell g q) {t s j} (ht6 : t < 6) (j1 : 1 ≤ j) (j2 : j ≤ g.nx)
    (hqs : q = CubeCell.place (CubeSide.cell g.nx t s j)) : ∃ p, InBox g p ∧ p.1 = (haloSource g.nx t s j).face ∧
      src g p = q := by
  obtain ⟨s', k', a, b, e1, e2⟩ := haloSource_back s j1 j2 ht6
  have hv := (haloSource_valid s j1 j2 ht6).1
  refine ⟨((haloSource g.nx t s j).face, s'.haloPlace g.nx k'), ?_, rfl, ?_⟩
  · refine ⟨by have := hv.1; simp only; omega, ?_, ?_⟩ <;> cases s' <;> simp only [CubeSide.haloPlace] <;> omega
  · rw [src_cube ho ht hn, update_get g.nx id _ hv.1 s' k' a b, e2, hqs]
    rfl

theorem cube_exists (hg : MeshOk g) {c q : Place} (hc : IsCell g c) (hq : IsCell g q) {k : Nat} (hk : k < 8)
    (h : src g (dest q (k : Int)) = c) : ∃ p, InBox g p ∧ p.1 = c.1 ∧ src g p = q := by
  rcases cube_place ho ht hn (dest_inBox hq hk) (by rw [h]; exact hc) with ⟨h1, h2⟩ | ⟨s, j, j1, j2, h1, h2, h3⟩
  · rw [h] at h2
    refine ⟨q, ⟨hq.1, by have := hq.2.2.1; omega, by have := hq.2.2.2.2; omega⟩, ?_, src_cell hg hq⟩
    rw [h2, dest_nat _ hk]
  · -- the place beside the face of `q` is across the side `s`
    have hq6 : q.1 < 6 := by have := hq.1; omega
    have hside : ∃ j', 1 ≤ j' ∧ j' ≤ g.nx ∧ q = CubeCell.place (CubeSide.cell g.nx q.1 s j') := by
      rw [dest_nat _ hk] at h1
      obtain ⟨b1, b2, b3, b4⟩ := compass_bound k hk
      obtain ⟨q0, q1, q2, q3, q4⟩ := hq
      obtain ⟨t, x, y⟩ := q
      simp only [Prod.mk.injEq, true_and] at *
      cases s <;> simp only [CubeSide.haloPlace, Prod.mk.injEq] at h1
      · exact ⟨y, by omega, by omega, by simp [CubeSide.cell, CubeCell.place]; omega⟩
      · exact ⟨y, by omega, by omega, by simp [CubeSide.cell, CubeCell.place]; omega⟩
      · exact ⟨x, by omega, by omega, by simp [CubeSide.cell, CubeCell.place]; omega⟩
      · exact ⟨x, by omega, by omega, by simp [CubeSide.cell, CubeCell.place]; omega⟩
    obtain ⟨j', a, b, e⟩ := hside
    obtain ⟨p, hp, hp1, hp2⟩ := cube_back ho ht hn hq hq6 a b e
    refine ⟨p, hp, ?_, hp2⟩
    rw [hp1, ← h, h2]
    have : (dest q (k : Int)).1 = q.1 := by rw [dest_nat _ hk]
    rw [this]
    simp only [CubeCell.place]
    cases s <;> simp only [haloSource] <;> split <;> rfl

theorem cube_unique {p p' : Place} (hp : InBox g p) (hp' : InBox g p') (hpp : p.1 = p'.1) (hs : IsCell g (src g p))
    (he : src g p = src g p') : p = p' := by
  rcases cube_place ho ht hn hp hs with ⟨h1, h2⟩ | ⟨s, j, j1, j2, h1, h2, h3⟩ <;>
    rcases cube_place ho ht hn hp' (he ▸ hs) with ⟨h1', h2'⟩ | ⟨s', j', j1', j2', h1', h2', h3'⟩
  · rw [← h2, he, h2']
  · rw [← he, h2] at h3'
    exact absurd hpp h3'
  · rw [he, h2'] at h3
    exact absurd hpp.symm h3
  · have hp6 : p.1 < 6 := by have := hp.1; omega
    rw [h1, h1', hpp]
    rw [h2, h2', hpp] at he
    rw [hpp] at hp6
    generalize p'.1 = t at *
    have hT : t = 0 ∨ t = 1 ∨ t = 2 ∨ t = 3 ∨ t = 4 ∨ t = 5 := by omega
    rcases hT with rfl | rfl | rfl | rfl | rfl | rfl <;> cases s <;> cases s' <;>
      simp [haloSource, CubeCell.place, CubeSide.haloPlace] at he ⊢ <;> omega

end cube

/-! ### All meshes -/

theorem rotated_flat {g : Grid} (hf : g.op.cubic = false) (p : Place) (k : Int) : rotated g p k = k := by
  unfold rotated; simp [hf]

theorem mesh_cases {g : Grid} (hg : MeshOk g) :
    g.op.cubic = false ∨ (g.op = ⟨false, false, true⟩ ∧ g.ntiles = 6 ∧ g.nx = g.ny) := by
  rcases hg with h | ⟨h, ht⟩ | ⟨h, ht, hn⟩ | ⟨h, ht, hn⟩ | ⟨h, ht, hn⟩
  · left; rw [h]
  · left; rw [h]
  · left; rw [h]
  · left; rw [h]
  · exact .inr ⟨h, ht, hn⟩

/-- The test for a neighbour that flows into `c` finds those that flow into `c`. -/
theorem inflow_flows {g : Grid} (hg : MeshOk g) {c : Place} (hc : IsCell g c) {o : Nat × Nat} (ho : o ∈ offsets)
    (hs : IsCell g (src g (around c o))) {k : Nat} (hk : k < 8) :
    dest (around c o) (rotated g (around c o) (k : Int)) = c → src g (dest (src g (around c o)) (k : Int)) = c := by
  rcases mesh_cases hg with hf | ⟨h, ht, hn⟩
  · rw [rotated_flat hf]
    exact flat_step hg hf hc (around_inBox hc ho) hs rfl rfl hk
  · exact (cube_iff h ht hn hg hc (around_inBox hc ho) rfl hs hk).2.1

theorem inflow_exists {g : Grid} (hg : MeshOk g) {c q : Place} (hc : IsCell g c) (hq : IsCell g q) {k : Nat} (hk : k < 8)
    (h : src g (dest q (k : Int)) = c) :
    ∃ o ∈ offsets, src g (around c o) = q ∧ dest (around c o) (rotated g (around c o) (k : Int)) = c := by
  rcases mesh_cases hg with hf | ⟨h', ht, hn⟩
  · obtain ⟨o, ho, e, e'⟩ := flat_exists hg hf hc hq hk h
    exact ⟨o, ho, e, by rw [rotated_flat hf]; exact e'⟩
  · obtain ⟨p, hp, hpc, hs⟩ := cube_exists h' ht hn hg hc hq hk h
    obtain ⟨⟨k', hk', e⟩, h1⟩ := cube_iff h' ht hn hg hc hp hpc (by rw [hs]; exact hq) hk
    rw [hs, e] at h1
    obtain ⟨o, ho, he⟩ := opposite k' hk'
    have hpo := (dest_around hc hk' he).1 (h1.2 h)
    refine ⟨o, ho, ?_⟩
    rw [← hpo]
    exact ⟨hs, by rw [e]; exact h1.2 h⟩

theorem inflow_unique {g : Grid} (hg : MeshOk g) {c : Place} (hc : IsCell g c) {o o' : Nat × Nat} (ho : o ∈ offsets)
    (ho' : o' ∈ offsets) (hs : IsCell g (src g (around c o))) (he : src g (around c o) = src g (around c o')) {k : Nat}
    (hk : k < 8) (h1 : dest (around c o) (rotated g (around c o) (k : Int)) = c)
    (h2 : dest (around c o') (rotated g (around c o') (k : Int)) = c) : o = o' := by
  apply around_inj hc
  rcases mesh_cases hg with hf | ⟨h', ht, hn⟩
  · rw [rotated_flat hf] at h1 h2
    obtain ⟨x, hx, he⟩ := opposite k hk
    rw [(dest_around hc hk he).1 h1, (dest_around hc hk he).1 h2]
  · exact cube_unique h' ht hn (around_inBox hc ho) (around_inBox hc ho') rfl hs he

end Verif.River
