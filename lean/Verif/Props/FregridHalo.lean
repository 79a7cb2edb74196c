import Verif.Lemmas.FregridHaloCopy
import Mathlib.Data.List.Nodup
/-
C118: in fregrid the points around an input tile get the values of the neighbouring tiles.
-/
namespace Verif.FregridHalo
open Verif.MosaicContact Verif.Spec Verif.Spec.FregridHalo

/-- **C118, the halo.** For every mosaic with oriented contacts that the program supports, values at centres (`shift = 0`) or corners
(`shift = 1`), and every number of levels: if the program goes on, the value outside a tile across place `i` of a contact is the value that
the other tile has at place `i` of its edge, seen from both sides of each contact. All other points, in the tiles or outside,
keep their values. Partial: contacts between two western, two eastern or two southern sides, neighbours of another size and edges of one cell
are not covered, see the theorems below. -/
theorem C118_halo_partial {F : Type} {nx ny : Nat → Nat} {shift nz ntiles : Nat} {gs : List Glue} (hs : ∀ g ∈ both gs, Supported nx ny ntiles g)
    (ho : ∀ g ∈ both gs, g.Oriented) (hcon : Consistent nx ny shift gs) {m m' : Mem F}
    (h : fill (gs.map (Glue.contact nx ny)) shift nz (fun t => (nx t : Int)) (fun t => (ny t : Int)) ntiles m = .ok m') :
    (∀ g ∈ both gs, ∀ i < g.e1.count shift, ∀ k < nz, value nx ny shift m' g.t1 k (g.out nx ny shift i) = value nx ny shift m g.t2 k (g.inn nx ny shift i)) ∧
    (∀ (t k : Nat) (x y : Int), -1 ≤ x → x ≤ (nx t : Int) + shift → -1 ≤ y → y ≤ (ny t : Int) + shift →
      (∀ g ∈ both gs, g.t1 = t → ∀ i < g.e1.count shift, (x, y) ≠ g.out nx ny shift i) → value nx ny shift m' t k (x, y) = value nx ny shift m t k (x, y)) ∧
    (∀ (t k : Nat) (x y : Int), 0 ≤ x → x < (nx t : Int) + shift → 0 ≤ y → y < (ny t : Int) + shift → value nx ny shift m' t k (x, y) = value nx ny shift m t k (x, y)) := by
  obtain ⟨h1, h2⟩ := fill_main hs ho hcon h
  refine ⟨h1, ?_, ?_⟩
  · intro t k x y a b c d hn
    refine h2 t k (x, y) ⟨a, ?_, c, ?_⟩ (fun g hg ht i hi _ => hn g hg ht i hi) <;> simp only [wx] <;> omega
  · intro t k x y a b c d
    refine h2 t k (x, y) (within_fits ⟨a, b, c, d⟩) ?_
    intro g hg ht i hi _ he
    subst ht
    have : Within (nx g.t1) (ny g.t1) shift (x, y) := ⟨a, b, c, d⟩
    rw [he] at this
    exact out_not_within this

/-- **C118, when it goes on.** The program goes on exactly if the two edges of each contact have the same number of cells. -/
theorem C118_accepts {F : Type} {nx ny : Nat → Nat} {shift nz ntiles : Nat} {gs : List Glue} (hs : ∀ g ∈ both gs, Supported nx ny ntiles g) (m : Mem F) :
    (∃ m', fill (gs.map (Glue.contact nx ny)) shift nz (fun t => (nx t : Int)) (fun t => (ny t : Int)) ntiles m = .ok m') ↔
      ∀ g ∈ gs, g.e1.count 0 = g.e2.count 0 := by
  have hc0 : ∀ g : Glue, g.e1.count shift = g.e2.count shift ↔ g.e1.count 0 = g.e2.count 0 := by
    intro g; unfold Edge.count; omega
  constructor
  · rintro ⟨m', h⟩ g hg
    unfold fill at h
    cases hset : setupBoundary (gs.map (Glue.contact nx ny)) 1 shift (fun t => (nx t : Int)) (fun t => (ny t : Int)) ntiles with
    | error e => rw [hset] at h; simp at h
    | ok bs => exact (hc0 g).1 (setup_counts hs hset g hg)
  · intro hc
    unfold fill
    rw [setup_ok hs (fun g hg => (hc0 g).2 (hc g hg))]
    exact ⟨_, rfl⟩

theorem flat_range {W H : Int} {k nz : Nat} {p : Int × Int} (hk : k < nz) (hp : Fits W H p) : 0 ≤ flat W H k p ∧ flat W H k p < nz * (W * H) := by
  obtain ⟨p1, p2, p3, p4⟩ := hp
  unfold flat
  have hW : 0 < W := by omega
  have hH : 0 < H := by omega
  have a1 : 0 ≤ (p.2 + 1) * W := Int.mul_nonneg (by omega) (by omega)
  have a2 : 0 ≤ (k : Int) * (W * H) := Int.mul_nonneg (by omega) (Int.mul_nonneg (by omega) (by omega))
  have a3 : (p.2 + 1) * W ≤ (H - 1) * W := Int.mul_le_mul_of_nonneg_right (by omega) (by omega)
  have a4 : (H - 1) * W = W * H - W := by ring
  have a5 : ((k : Int) + 1) * (W * H) ≤ nz * (W * H) := Int.mul_le_mul_of_nonneg_right (by omega) (Int.mul_nonneg (by omega) (by omega))
  have a6 : ((k : Int) + 1) * (W * H) = k * (W * H) + W * H := by ring
  omega

/-- **C118, inside the arrays.** Every value read or written is inside the arrays of `nz` levels of `nx + shift + 2` by `ny + shift + 2` values, and
each boundary reads as many values as it writes. -/
theorem C118_bounds {nx ny : Nat → Nat} {shift nz ntiles : Nat} {gs : List Glue} (hs : ∀ g ∈ both gs, Supported nx ny ntiles g)
    (ho : ∀ g ∈ both gs, g.Oriented) {bs : List (List Bound)}
    (h : setupBoundary (gs.map (Glue.contact nx ny)) 1 shift (fun t => (nx t : Int)) (fun t => (ny t : Int)) ntiles = .ok bs) :
    bs.length = ntiles ∧ ∀ (n : Nat) (l : List Bound), bs[n]? = some l → ∀ b ∈ l, b.tile2 < ntiles ∧
      (target nz (nx n + shift + 2) (ny n + shift + 2) b.to).length = (source nz (nx b.tile2 + shift + 2) (ny b.tile2 + shift + 2) b.rotate b.fr).length ∧
      (∀ x ∈ target nz (nx n + shift + 2) (ny n + shift + 2) b.to, 0 ≤ x ∧ x < nz * (((nx n : Int) + shift + 2) * (ny n + shift + 2))) ∧
      (∀ x ∈ source nz (nx b.tile2 + shift + 2) (ny b.tile2 + shift + 2) b.rotate b.fr,
        0 ≤ x ∧ x < nz * (((nx b.tile2 : Int) + shift + 2) * (ny b.tile2 + shift + 2))) := by
  have hcnt := setup_counts hs h
  have hcnt' : ∀ g ∈ both gs, g.e1.count shift = g.e2.count shift := by
    intro g hg
    rcases List.mem_append.1 hg with h | h
    · exact hcnt g h
    · obtain ⟨g', h', rfl⟩ := List.mem_map.1 h
      exact (hcnt g' h').symm
  rw [setup_ok hs hcnt] at h
  simp only [Except.ok.injEq] at h
  subst h
  refine ⟨by simp, ?_⟩
  intro n l hl b hb
  have hst : (n, b) ∈ steps 0 ((List.range ntiles).map (lists nx ny shift gs)) := (mem_steps 0 _ _).2 ⟨n, l, hl, by simp, hb⟩
  obtain ⟨g, hg, he⟩ := (mem_steps_lists hs _).1 hst
  simp only [Prod.mk.injEq] at he
  obtain ⟨rfl, rfl⟩ := he
  obtain ⟨a1, a2, a3, a4, a5, a6, a7, a8⟩ := hs g hg
  obtain ⟨b1, b2, b3, b4, b5, b6, b7, b8⟩ := hs g.flip (flip_mem hg)
  simp only [Glue.flip] at b1 b2 b3 b4 b5 b6 b7 b8
  have ht := target_line (nx := nx) (ny := ny) (t := g.t1) (e := g.e1) shift nz
  have hf := source_line (nx := nx) (ny := ny) (t := g.t2) (t1 := g.t1) (e := g.e2) (s := g.e1.side) shift nz (fun e => (a7 e).symm) (fun e => (a8 e).symm)
  have hlen : (target nz (nx g.t1 + shift + 2) (ny g.t1 + shift + 2) (boundOf nx ny shift g).to).length =
      (source nz (nx g.t2 + shift + 2) (ny g.t2 + shift + 2) (boundOf nx ny shift g).rotate (boundOf nx ny shift g).fr).length := by
    change (target nz _ _ (toBox 1 shift (nx g.t1) (ny g.t1) g.e1.side (endOf nx ny g.t1 g.e1))).length =
      (source nz _ _ (rotation g.e1.side g.e2.side) (frBox 1 shift (nx g.t1) (ny g.t1) g.e2.side (endOf nx ny g.t2 g.e2))).length
    rw [ht, hf]
    simp [hcnt' g hg]
  have cm := copies_mem (nz := nz) a5 b5 (ho g hg) a6 (fun e => (a7 e).symm) (fun e => (a8 e).symm) (hcnt' g hg)
  refine ⟨b1, hlen, ?_, ?_⟩
  · intro x hx
    obtain ⟨i, hi, rfl⟩ := List.getElem_of_mem hx
    have hz : (_, _) ∈ copies nz (wx nx shift) (wx ny shift) g.t1 (boundOf nx ny shift g) :=
      List.mem_of_getElem? (i := i) (by
        unfold copies
        rw [List.getElem?_zip_eq_some]
        exact ⟨List.getElem?_eq_getElem hi, List.getElem?_eq_getElem (lt_of_lt_of_eq hi hlen)⟩)
    obtain ⟨k, hk, j, hj, hx, _⟩ := (cm _ _).1 hz
    rw [hx]
    exact flat_range hk (out_fits a4 hj)
  · intro x hx
    obtain ⟨i, hi, rfl⟩ := List.getElem_of_mem hx
    have hz : (_, _) ∈ copies nz (wx nx shift) (wx ny shift) g.t1 (boundOf nx ny shift g) :=
      List.mem_of_getElem? (i := i) (by
        unfold copies
        rw [List.getElem?_zip_eq_some]
        exact ⟨List.getElem?_eq_getElem (by rw [hlen]; exact hi), List.getElem?_eq_getElem hi⟩)
    obtain ⟨k, hk, j, hj, _, hx⟩ := (cm _ _).1 hz
    rw [hx]
    exact flat_range hk (within_fits (inn_within b2 b3 b4 (by rw [← hcnt' g hg]; exact hj)))

/-! ### Mosaics that satisfy the hypotheses -/

theorem out_side {nx ny : Nat → Nat} {shift : Nat} {a b : Glue} {i j : Nat} (ha : a.e1.Valid (nx a.t1) (ny a.t1)) (hb : b.e1.Valid (nx b.t1) (ny b.t1))
    (hi : i < a.e1.count shift) (hj : j < b.e1.count shift) (ht : a.t1 = b.t1) (h : a.out nx ny shift i = b.out nx ny shift j) :
    a.e1.side = b.e1.side ∧ a.e1.pos shift i = b.e1.pos shift j := by
  unfold Edge.Valid Edge.vertical at ha hb
  unfold Glue.out at h
  rw [ht] at h ha
  cases h1 : a.e1.side <;> cases h2 : b.e1.side <;> simp [h1] at ha <;> simp [h2] at hb <;> obtain ⟨a1, a2⟩ := pos_range ha.1 ha.2 hi <;>
    obtain ⟨b1, b2⟩ := pos_range hb.1 hb.2 hj <;> simp only [h1, h2, outside, Prod.mk.injEq] at h <;>
    first
    | exact ⟨rfl, h.1⟩
    | exact ⟨rfl, h.2⟩
    | (exfalso; omega)

theorem pos_inj {shift : Nat} {e : Edge} {i j : Nat} (h : e.pos shift i = e.pos shift j) : i = j := by
  by_cases hu : e.first ≤ e.last
  · rw [pos_up hu, pos_up hu] at h; omega
  · rw [pos_down hu, pos_down hu] at h; omega

/-- A mosaic in which each side of a tile is part of at most one contact has one value for each point outside. -/
theorem C118_consistent {nx ny : Nat → Nat} {shift ntiles : Nat} {gs : List Glue} (hs : ∀ g ∈ both gs, Supported nx ny ntiles g)
    (hn : ((both gs).map (fun g => (g.t1, g.e1.side))).Nodup) : Consistent nx ny shift gs := by
  intro a ha b hb i j hi hj ht he
  obtain ⟨h1, h2⟩ := out_side (hs a ha).2.2.2.1 (hs b hb).2.2.2.1 hi hj ht he
  have hab : a = b := List.inj_on_of_nodup_map hn ha hb (by simp [ht, h1])
  subst hab
  have := pos_inj h2
  subst this
  exact ⟨rfl, rfl⟩

theorem cube_supported {n : Nat} (hn : 2 ≤ n) : ∀ g ∈ both (cube n), Supported (fun _ => n) (fun _ => n) 6 g := by
  have : n - 1 < n := by omega
  have h0 : 0 < n := by omega
  have e1 : (0 : Nat) ≠ n - 1 := by omega
  have e2 : n - 1 ≠ 0 := by omega
  simp [both, cube, Glue.flip, Supported, Edge.Valid, Edge.vertical, hn, this, h0, e1, e2]

theorem cube_oriented {n : Nat} (hn : 2 ≤ n) : ∀ g ∈ both (cube n), g.Oriented := by
  have e1 : 0 ≤ n - 1 := by omega
  have e2 : ¬ (n - 1 ≤ 0) := by omega
  simp [both, cube, Glue.flip, Glue.Oriented, Edge.ccw]
  omega

theorem cube_nodup (n : Nat) : ((both (cube n)).map (fun g => (g.t1, g.e1.side))).Nodup := by
  change ([(0, .east), (0, .north), (0, .west), (0, .south), (1, .north), (1, .east), (1, .south), (2, .east), (2, .north), (3, .north), (3, .east), (4, .east),
    (1, .west), (2, .west), (4, .north), (5, .north), (2, .south), (3, .south), (5, .east), (3, .west), (4, .west), (4, .south), (5, .south), (5, .west)] : List (Nat × Side)).Nodup
  decide

/-- **C118, cubed sphere.** For a cubed sphere of every size, with values at centres or corners: the program goes on, and around every tile it
fills each of the four sides from the tile that lies there. -/
theorem C118_cube {F : Type} {n shift nz : Nat} (hn : 2 ≤ n) (m : Mem F) :
    ∃ m', fill ((cube n).map (Glue.contact (fun _ => n) (fun _ => n))) shift nz (fun _ => (n : Int)) (fun _ => (n : Int)) 6 m = .ok m' ∧
      (∀ g ∈ both (cube n), ∀ i < n + shift, ∀ k < nz, value (fun _ => n) (fun _ => n) shift m' g.t1 k (g.out (fun _ => n) (fun _ => n) shift i) =
        value (fun _ => n) (fun _ => n) shift m g.t2 k (g.inn (fun _ => n) (fun _ => n) shift i)) ∧
      (∀ (t k : Nat) (x y : Int), 0 ≤ x → x < (n : Int) + shift → 0 ≤ y → y < (n : Int) + shift →
        value (fun _ => n) (fun _ => n) shift m' t k (x, y) = value (fun _ => n) (fun _ => n) shift m t k (x, y)) ∧
      (∀ t < 6, ∀ s : Side, ∃ g ∈ both (cube n), g.t1 = t ∧ g.e1.side = s ∧ g.t2 ≠ t) := by
  have hc : ∀ g ∈ cube n, g.e1.count 0 = g.e2.count 0 := by
    simp [cube, Edge.count]
  have hc' : ∀ g ∈ both (cube n), g.e1.count shift = n + shift := by
    simp [both, cube, Glue.flip, Edge.count]
    omega
  obtain ⟨m', hm'⟩ := (C118_accepts (shift := shift) (nz := nz) (cube_supported hn) m).2 hc
  refine ⟨m', hm', ?_⟩
  obtain ⟨h1, _, h3⟩ := C118_halo_partial (cube_supported hn) (cube_oriented hn) (C118_consistent (cube_supported hn) (cube_nodup n)) hm'
  refine ⟨fun g hg i hi k hk => h1 g hg i (by rw [hc' g hg]; exact hi) k hk, h3, ?_⟩
  intro t ht s
  have hl : (t, s) ∈ (both (cube n)).map (fun g => (g.t1, g.e1.side)) := by
    change (t, s) ∈ ([(0, .east), (0, .north), (0, .west), (0, .south), (1, .north), (1, .east), (1, .south), (2, .east), (2, .north), (3, .north), (3, .east), (4, .east),
      (1, .west), (2, .west), (4, .north), (5, .north), (2, .south), (3, .south), (5, .east), (3, .west), (4, .west), (4, .south), (5, .south), (5, .west)] : List (Nat × Side))
    have : t = 0 ∨ t = 1 ∨ t = 2 ∨ t = 3 ∨ t = 4 ∨ t = 5 := by omega
    rcases this with rfl | rfl | rfl | rfl | rfl | rfl <;> cases s <;> decide
  obtain ⟨g, hg, he⟩ := List.mem_map.1 hl
  simp only [Prod.mk.injEq] at he
  refine ⟨g, hg, he.1, he.2, ?_⟩
  rw [← he.1]
  have : ∀ g ∈ both (cube n), g.t2 ≠ g.t1 := by simp [both, cube, Glue.flip]
  exact this g hg

theorem tripolar_supported {h ny : Nat} (hh : 2 ≤ h) (hy : 2 ≤ ny) : ∀ g ∈ both (tripolar h ny), Supported (fun _ => 2 * h) (fun _ => ny) 1 g := by
  simp [both, tripolar, Glue.flip, Supported, Edge.Valid, Edge.vertical]
  omega

theorem tripolar_oriented {h ny : Nat} (hh : 2 ≤ h) (hy : 2 ≤ ny) : ∀ g ∈ both (tripolar h ny), g.Oriented := by
  simp [both, tripolar, Glue.flip, Glue.Oriented, Edge.ccw]
  omega

/-- **C118, tripolar grid.** For a tile of `2 h` by `ny` cells that is cyclic in x and folded in the north, with values at centres or corners:
the program goes on, the columns outside are the last and the first column, and the row beyond the north is the row below it read backwards. -/
theorem C118_tripolar {F : Type} {h ny shift nz : Nat} (hh : 2 ≤ h) (hy : 2 ≤ ny) (m : Mem F) :
    ∃ m', fill ((tripolar h ny).map (Glue.contact (fun _ => 2 * h) (fun _ => ny))) shift nz (fun _ => ((2 * h : Nat) : Int)) (fun _ => (ny : Int)) 1 m = .ok m' ∧
      (∀ k < nz, ∀ j : Nat, j < ny + shift →
        value (fun _ => 2 * h) (fun _ => ny) shift m' 0 k (-1, j) = value (fun _ => 2 * h) (fun _ => ny) shift m 0 k (2 * h - 1, j) ∧
        value (fun _ => 2 * h) (fun _ => ny) shift m' 0 k (2 * h + shift, j) = value (fun _ => 2 * h) (fun _ => ny) shift m 0 k (shift, j)) ∧
      (∀ k < nz, ∀ i : Nat, i < 2 * h + shift →
        value (fun _ => 2 * h) (fun _ => ny) shift m' 0 k (i, ny + shift) = value (fun _ => 2 * h) (fun _ => ny) shift m 0 k (2 * h - 1 + shift - i, ny - 1)) := by
  have hc : ∀ g ∈ tripolar h ny, g.e1.count 0 = g.e2.count 0 := by
    simp [tripolar, Edge.count]
    omega
  obtain ⟨m', hm'⟩ := (C118_accepts (shift := shift) (nz := nz) (tripolar_supported hh hy) m).2 hc
  have hcon : Consistent (fun _ => 2 * h) (fun _ => ny) shift (tripolar h ny) := by
    intro a ha b hb i j hi hj ht he
    obtain ⟨h1, h2⟩ := out_side (tripolar_supported hh hy a ha).2.2.2.1 (tripolar_supported hh hy b hb).2.2.2.1 hi hj ht he
    simp only [both, tripolar, Glue.flip, List.map_cons, List.map_nil, List.cons_append, List.nil_append, List.mem_cons, List.not_mem_nil, or_false] at ha hb
    have e : ¬ (2 * h - 1 ≤ h) := by omega
    clear hi hj he
    rcases ha with rfl | rfl | rfl | rfl <;> rcases hb with rfl | rfl | rfl | rfl <;> simp only [reduceCtorEq] at h1 <;> refine ⟨rfl, ?_⟩ <;>
      simp only [Glue.inn, inside, Edge.pos, Nat.zero_le, if_true, e, if_false, Prod.mk.injEq, and_true, true_and] at h2 ⊢ <;> omega
  obtain ⟨h1, _, _⟩ := C118_halo_partial (tripolar_supported hh hy) (tripolar_oriented hh hy) hcon hm'
  refine ⟨m', hm', ?_, ?_⟩
  · intro k hk j hj
    have w1 := h1 ⟨0, ⟨.west, 0, ny - 1⟩, 0, ⟨.east, 0, ny - 1⟩⟩ (by simp [both, tripolar]) j (by simp [Edge.count]; omega) k hk
    have w2 := h1 ⟨0, ⟨.east, 0, ny - 1⟩, 0, ⟨.west, 0, ny - 1⟩⟩ (by simp [both, tripolar, Glue.flip]) j (by simp [Edge.count]; omega) k hk
    simp [Glue.out, Glue.inn, Edge.pos, outside, inside] at w1 w2
    exact ⟨w1, w2⟩
  · intro k hk i hi
    by_cases hlt : i < h + shift
    · have w := h1 ⟨0, ⟨.north, 0, h - 1⟩, 0, ⟨.north, 2 * h - 1, h⟩⟩ (by simp [both, tripolar]) i (by simp [Edge.count]; omega) k hk
      have e : ¬ (2 * h - 1 ≤ h) := by omega
      simp [Glue.out, Glue.inn, Edge.pos, outside, inside, e] at w
      rw [w]
      congr 2
      omega
    · have w := h1 ⟨0, ⟨.north, 2 * h - 1, h⟩, 0, ⟨.north, 0, h - 1⟩⟩ (by simp [both, tripolar, Glue.flip]) (2 * h - 1 + shift - i) (by simp [Edge.count]; omega) k hk
      have e : ¬ (2 * h - 1 ≤ h) := by omega
      simp [Glue.out, Glue.inn, Edge.pos, outside, inside, e] at w
      rw [show ((i : Int), (ny : Int) + shift) = ((2 * h - 1 : Nat) + (shift : Int) - ((2 * h - 1 + shift - i : Nat) : Int), (ny : Int) + shift) by congr 1; omega, w]
      congr 2
      omega

/-! ### Before the update -/

theorem zeros_eq {F : Type} [Zero F] (L : List Int) (a : Int → F) (x : Int) :
    L.foldl (fun a i => fun x => if x = i then 0 else a x) a x = if x ∈ L then 0 else a x := by
  induction L generalizing a with
  | nil => simp
  | cons i L ih =>
    rw [List.foldl_cons, ih]
    by_cases h : x ∈ L
    · simp [h]
    · by_cases hx : x = i <;> simp [h, hx]

theorem zeros_nest {F : Type} [Zero F] (L M : List Int) (c : Int → Int → Int) (a : Int → F) :
    L.foldl (fun a j => M.foldl (fun a i => fun x => if x = c j i then 0 else a x) a) a =
      (L.flatMap (fun j => M.map (c j))).foldl (fun a i => fun x => if x = i then 0 else a x) a := by
  induction L generalizing a with
  | nil => rfl
  | cons j L ih => rw [List.foldl_cons, ih, List.flatMap_cons, List.foldl_append, List.foldl_map]

theorem mem_up (a b x : Int) : x ∈ up a b ↔ a ≤ x ∧ x ≤ b := by
  unfold up
  simp only [List.mem_map, List.mem_range]
  constructor
  · rintro ⟨n, hn, rfl⟩; omega
  · intro h; exact ⟨(x - a).toNat, by omega, by omega⟩

/-- **C118, before the update.** `init_halo` makes all values outside the tile zero and keeps those in the tile. -/
theorem C118_init {F : Type} [Zero F] (nx ny nz : Nat) (m : Mem F) (t k : Nat) (x y : Int) (hx : -1 ≤ x ∧ x ≤ nx) (hy : -1 ≤ y ∧ y ≤ ny) :
    value (fun _ => nx) (fun _ => ny) 0 (fun t => initHalo nx ny nz (m t)) t k (x, y) =
      if k < nz ∧ (x = -1 ∨ x = nx ∨ y = -1 ∨ y = ny) then 0 else value (fun _ => nx) (fun _ => ny) 0 m t k (x, y) := by
  -- the places of one level
  let W : Int := (nx : Int) + 2
  let H : Int := (ny : Int) + 2
  let box := fun (js je is ie : Int) (k : Nat) => (up js (je - 1)).flatMap (fun j => (up is (ie - 1)).map (fun i => (k : Int) * (W * H) + j * W + i))
  let level := fun (k : Nat) => box 0 H 0 1 k ++ box 0 H (nx + 1) W k ++ box 0 1 0 W k ++ box (ny + 1) H 0 W k
  have hin : ∀ (ks : List Nat) (a : Int → F), ks.foldl (fun a (k : Nat) =>
      let a := (up 0 (H - 1)).foldl (fun a j => (up 0 (1 - 1)).foldl (fun a i => fun x => if x = (k : Int) * (W * H) + j * W + i then 0 else a x) a) a
      let a := (up 0 (H - 1)).foldl (fun a j => (up (nx + 1) (W - 1)).foldl (fun a i => fun x => if x = (k : Int) * (W * H) + j * W + i then 0 else a x) a) a
      let a := (up 0 (1 - 1)).foldl (fun a j => (up 0 (W - 1)).foldl (fun a i => fun x => if x = (k : Int) * (W * H) + j * W + i then 0 else a x) a) a
      (up (ny + 1) (H - 1)).foldl (fun a j => (up 0 (W - 1)).foldl (fun a i => fun x => if x = (k : Int) * (W * H) + j * W + i then 0 else a x) a) a) a =
      (ks.flatMap level).foldl (fun a i => fun x => if x = i then 0 else a x) a := by
    intro ks
    induction ks with
    | nil => intro a; rfl
    | cons k ks ih =>
      intro a
      rw [List.foldl_cons, ih, List.flatMap_cons, List.foldl_append]
      congr 1
      simp only [level, List.foldl_append, box]
      rw [← zeros_nest, ← zeros_nest, ← zeros_nest, ← zeros_nest]
  have hz : initHalo nx ny nz (m t) = ((List.range nz).flatMap level).foldl (fun a i => fun x => if x = i then 0 else a x) (m t) := hin (List.range nz) (m t)
  have hb : ∀ (js je is ie : Int) (k' : Nat), 0 ≤ js → je ≤ H → 0 ≤ is → ie ≤ W →
      (flat W H k (x, y) ∈ box js je is ie k' ↔ k = k' ∧ js ≤ y + 1 ∧ y + 1 < je ∧ is ≤ x + 1 ∧ x + 1 < ie) := by
    intro js je is ie k' h1 h2 h3 h4
    simp only [box, List.mem_flatMap, List.mem_map, mem_up]
    constructor
    · rintro ⟨j, hj, i, hi, he⟩
      have he' : flat W H k (x, y) = flat W H k' (i - 1, j - 1) := by
        rw [← he]; unfold flat; ring
      obtain ⟨a, b⟩ := flat_inj (p := (x, y)) (q := (i - 1, j - 1)) (k := (k : Int)) (k' := (k' : Int))
        ⟨hx.1, by simp only [W]; omega, hy.1, by simp only [H]; omega⟩ ⟨by simp only; omega, by simp only; omega, by simp only; omega, by simp only; omega⟩ he'
      simp only [Prod.mk.injEq] at b
      omega
    · rintro ⟨rfl, a, b, c, d⟩
      exact ⟨y + 1, by omega, x + 1, by omega, by unfold flat; ring⟩
  have key : flat W H k (x, y) ∈ (List.range nz).flatMap level ↔ k < nz ∧ (x = -1 ∨ x = nx ∨ y = -1 ∨ y = ny) := by
    have hW : W = (nx : Int) + 2 := rfl
    have hH : H = (ny : Int) + 2 := rfl
    simp only [List.mem_flatMap, List.mem_range, level, List.mem_append]
    constructor
    · rintro ⟨k', hk', hm⟩
      rw [hb _ _ _ _ k' (by omega) (by omega) (by omega) (by omega), hb _ _ _ _ k' (by omega) (by omega) (by omega) (by omega),
        hb _ _ _ _ k' (by omega) (by omega) (by omega) (by omega), hb _ _ _ _ k' (by omega) (by omega) (by omega) (by omega)] at hm
      omega
    · rintro ⟨hk, hm⟩
      refine ⟨k, hk, ?_⟩
      rw [hb _ _ _ _ k (by omega) (by omega) (by omega) (by omega), hb _ _ _ _ k (by omega) (by omega) (by omega) (by omega),
        hb _ _ _ _ k (by omega) (by omega) (by omega) (by omega), hb _ _ _ _ k (by omega) (by omega) (by omega) (by omega)]
      omega
  have hv : ∀ m : Mem F, value (fun _ => nx) (fun _ => ny) 0 m t k (x, y) = m t (flat W H k (x, y)) := by
    intro m
    unfold value flat
    simp [W, H]
  rw [hv, hv, hz, zeros_eq]
  by_cases hc : k < nz ∧ (x = -1 ∨ x = nx ∨ y = -1 ∨ y = ny)
  · rw [if_pos hc, if_pos (key.2 hc)]
  · rw [if_neg hc, if_neg (fun h => hc (key.1 h))]

/-! ### What the program cannot do -/

/-- Values that tell the place: 1000 times the tile plus the index. -/
def haloTag : Mem Int := fun t x => 1000 * t + x

/-- Result of the update at a point, `none` if the program stops. -/
def haloAt (gs : List Glue) (nx ny : Nat → Nat) (ntiles t : Nat) (p : Int × Int) : Option Int :=
  match fill (gs.map (Glue.contact nx ny)) 0 1 (fun t => (nx t : Int)) (fun t => (ny t : Int)) ntiles haloTag with
  | .ok m' => some (value nx ny 0 m' t 0 p)
  | .error _ => none

/-- **C118 fails for two western sides.** An oriented contact between the western sides of two tiles runs in opposite directions, but the
program reads it in the same direction: the point west of the first cell gets the value of the first cell of the other tile
instead of the last. -/
theorem C118_same_side_wrong : ∃ g : Glue, g.Oriented ∧ g.e1.Valid 3 3 ∧ g.e2.Valid 3 3 ∧
    ∃ v w, haloAt [g] (fun _ => 3) (fun _ => 3) 2 0 (g.out (fun _ => 3) (fun _ => 3) 0 0) = some v ∧
      w = value (fun _ => 3) (fun _ => 3) 0 haloTag 1 0 (g.inn (fun _ => 3) (fun _ => 3) 0 0) ∧ v ≠ w :=
  ⟨⟨0, ⟨.west, 0, 2⟩, 1, ⟨.west, 2, 0⟩⟩, by simp [Glue.Oriented, Edge.ccw], by simp [Edge.Valid, Edge.vertical], by simp [Edge.Valid, Edge.vertical], 1006, 1016, by decide +kernel, by decide +kernel, by decide⟩

/-- **C118 fails for tiles of different size.** The last column of the western neighbour is looked for at the width of the tile itself: a
tile of two columns next to one of four columns gets the second column. -/
theorem C118_size_wrong : ∃ (g : Glue) (nx : Nat → Nat), g.Oriented ∧ nx 0 = 2 ∧ nx 1 = 4 ∧ g.e1.Valid (nx 0) 3 ∧ g.e2.Valid (nx 1) 3 ∧
    ∃ v w, haloAt [g] nx (fun _ => 3) 2 0 (g.out nx (fun _ => 3) 0 0) = some v ∧
      w = value nx (fun _ => 3) 0 haloTag 1 0 (g.inn nx (fun _ => 3) 0 0) ∧ v ≠ w :=
  ⟨⟨0, ⟨.west, 0, 2⟩, 1, ⟨.east, 0, 2⟩⟩, fun t => if t = 0 then 2 else 4, by simp [Glue.Oriented, Edge.ccw], rfl, rfl, by simp [Edge.Valid, Edge.vertical], by simp [Edge.Valid, Edge.vertical], 1008, 1010, by decide +kernel, by decide +kernel, by decide⟩

/-- **C118 fails for edges of one cell.** A contact along one cell stops the program. -/
theorem C118_one_cell_wrong {nx ny : Nat → Nat} {g : Glue} (h : g.e1.first = g.e1.last) {F : Type} (shift nz ntiles : Nat) (m : Mem F) :
    fill ([g].map (Glue.contact nx ny)) shift nz (fun t => (nx t : Int)) (fun t => (ny t : Int)) ntiles m = .error .point := by
  have hd : direction (endA nx ny g) = .error .point := by
    unfold endA
    cases hs : g.e1.side with
    | west => rw [endOf_west hs]; simp [direction, h]
    | east => rw [endOf_east hs]; simp [direction, h]
    | south => rw [endOf_south hs]; simp [direction, h]
    | north => rw [endOf_north hs]; simp [direction, h]
  unfold fill setupBoundary
  rw [ends_eq, collect_map]
  change (match (match collect (fun x => direction (endA nx ny x)) (g :: [g.flip]) with | .error e => .error e | .ok _ => _ : Except Err (List (List Bound))) with
    | .error e => .error e | .ok _ => _ : Except Err (Mem F)) = _
  rw [collect, hd]

/-- **C118 fails for a tile one cell wide.** Its eastern side is taken for its western side: in a cyclic channel of one column nothing is
written in the east. -/
theorem C118_narrow_wrong : ∃ g : Glue, g = ⟨0, ⟨.west, 0, 2⟩, 0, ⟨.east, 0, 2⟩⟩ ∧ g.Oriented ∧
    haloAt [g] (fun _ => 1) (fun _ => 3) 1 0 (1, 0) = some (value (fun _ => 1) (fun _ => 3) 0 haloTag 0 0 (1, 0)) ∧
    value (fun _ => 1) (fun _ => 3) 0 haloTag 0 0 (1, 0) ≠ value (fun _ => 1) (fun _ => 3) 0 haloTag 0 0 (g.flip.inn (fun _ => 1) (fun _ => 3) 0 0) :=
  ⟨_, rfl, by simp [Glue.Oriented, Edge.ccw], by decide +kernel, by decide +kernel⟩

/-! ### Cases -/

/-- A cubed sphere of 3 by 3 cells: west of the first tile lies the northern side of the fifth, backwards; north of it the western side of the
third, backwards. -/
theorem C118_case : haloAt (cube 3) (fun _ => 3) (fun _ => 3) 6 0 (-1, 0) = some (value (fun _ => 3) (fun _ => 3) 0 haloTag 4 0 (2, 2)) ∧
    haloAt (cube 3) (fun _ => 3) (fun _ => 3) 6 0 (0, 3) = some (value (fun _ => 3) (fun _ => 3) 0 haloTag 2 0 (0, 2)) ∧
    haloAt (cube 3) (fun _ => 3) (fun _ => 3) 6 0 (1, -1) = some (value (fun _ => 3) (fun _ => 3) 0 haloTag 5 0 (1, 2)) := by
  refine ⟨?_, ?_, ?_⟩ <;> decide +kernel

example : haloAt (tripolar 2 3) (fun _ => 4) (fun _ => 3) 1 0 (0, 3) = some (value (fun _ => 4) (fun _ => 3) 0 haloTag 0 0 (3, 2)) := by decide +kernel

end Verif.FregridHalo
