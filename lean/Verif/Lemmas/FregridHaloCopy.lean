import Verif.Lemmas.FregridHaloSetup
/-
Lemmas about the halo of fregrid: the copies of one boundary are the places of its edge, and all of them together.
-/
namespace Verif.FregridHalo
open Verif.MosaicContact Verif.Spec Verif.Spec.FregridHalo

/-- Length of a row, of a column -/
abbrev wx (nx : Nat → Nat) (shift : Nat) (t : Nat) : Int := (nx t : Int) + shift + 2

theorem value_flat {F : Type} (nx ny : Nat → Nat) (shift : Nat) (m : Mem F) (t k : Nat) (p : Int × Int) :
    value nx ny shift m t k p = m t (flat (wx nx shift t) (wx ny shift t) k p) := rfl

theorem pos_up {shift : Nat} {e : Edge} (h : e.first ≤ e.last) (m : Nat) : e.pos shift m = lo e + m := by
  unfold Edge.pos lo; rw [if_pos h]; omega

theorem pos_down {shift : Nat} {e : Edge} (h : ¬ e.first ≤ e.last) (m : Nat) : e.pos shift m = hi e + shift - m := by
  unfold Edge.pos hi; rw [if_neg h]; omega

/-- For oriented contacts between supported sides the program reverses exactly when the edges run in opposite directions -/
theorem reversed_iff {g : Glue} (h1 : g.e1.first ≠ g.e1.last) (h2 : g.e2.first ≠ g.e2.last) (ho : g.Oriented)
    (hs : g.e1.side = g.e2.side → g.e1.side = .north) :
    reversed g.e1.side g.e2.side = true ↔ ¬ (g.e1.first ≤ g.e1.last ↔ g.e2.first ≤ g.e2.last) := by
  obtain ⟨t1, ⟨s1, f1, l1⟩, t2, ⟨s2, f2, l2⟩⟩ := g
  simp only [Glue.Oriented, Edge.ccw] at *
  have a1 : l1 ≤ f1 ↔ ¬ f1 ≤ l1 := by omega
  have a2 : l2 ≤ f2 ↔ ¬ f2 ≤ l2 := by omega
  by_cases c1 : f1 ≤ l1 <;> by_cases c2 : f2 ≤ l2 <;> cases s1 <;> cases s2 <;>
    simp only [a1, a2, c1, c2, not_true_eq_false, not_false_eq_true, decide_true, decide_false, ne_eq, reduceCtorEq, forall_const, false_implies] at * <;>
    simp [reversed, rotation]

theorem copies_mem {nx ny : Nat → Nat} {shift nz : Nat} {g : Glue} (h1 : g.e1.first ≠ g.e1.last) (h2 : g.e2.first ≠ g.e2.last) (ho : g.Oriented)
    (hs : g.e1.side = g.e2.side → g.e1.side = .north) (hx : g.e2.side = .east → nx g.t1 = nx g.t2) (hy : g.e2.side = .north → ny g.t1 = ny g.t2)
    (hc : g.e1.count shift = g.e2.count shift) (x y : Int) :
    (x, y) ∈ copies nz (wx nx shift) (wx ny shift) g.t1 (boundOf nx ny shift g) ↔
      ∃ k < nz, ∃ m < g.e1.count shift, x = flat (wx nx shift g.t1) (wx ny shift g.t1) (k : Nat) (g.out nx ny shift m) ∧
        y = flat (wx nx shift g.t2) (wx ny shift g.t2) (k : Nat) (g.inn nx ny shift m) := by
  have hr := reversed_iff h1 h2 ho hs
  unfold copies
  have ht := target_line (nx := nx) (ny := ny) (t := g.t1) (e := g.e1) shift nz
  have hf := source_line (nx := nx) (ny := ny) (t := g.t2) (t1 := g.t1) (e := g.e2) (s := g.e1.side) shift nz hx hy
  change (x, y) ∈ (target nz (wx nx shift g.t1) (wx ny shift g.t1) (toBox 1 shift (nx g.t1) (ny g.t1) g.e1.side (endOf nx ny g.t1 g.e1))).zip
    (source nz (wx nx shift g.t2) (wx ny shift g.t2) (rotation g.e1.side g.e2.side) (frBox 1 shift (nx g.t1) (ny g.t1) g.e2.side (endOf nx ny g.t2 g.e2))) ↔ _
  unfold wx
  rw [ht, hf, ← hc, zip_levels]
  simp only [List.mem_flatMap, List.mem_range, List.mem_map, Prod.mk.injEq]
  have c1 := count_eq shift g.e1
  have c2 := count_eq shift g.e2
  -- place of the program and place of the edge
  have key : ∀ m < g.e1.count shift, ∃ m' < g.e1.count shift, g.e1.pos shift m' = lo g.e1 + m ∧
      g.e2.pos shift m' = (if reversed g.e1.side g.e2.side = true then hi g.e2 + shift - m else lo g.e2 + m) := by
    intro m hm
    by_cases hu : g.e1.first ≤ g.e1.last
    · refine ⟨m, hm, pos_up hu m, ?_⟩
      by_cases hu2 : g.e2.first ≤ g.e2.last
      · rw [if_neg (by rw [hr]; tauto), pos_up hu2]
      · rw [if_pos (by rw [hr]; tauto), pos_down hu2]
    · refine ⟨g.e1.count shift - 1 - m, by omega, by rw [pos_down hu]; omega, ?_⟩
      by_cases hu2 : g.e2.first ≤ g.e2.last
      · rw [if_pos (by rw [hr]; tauto), pos_up hu2]; omega
      · rw [if_neg (by rw [hr]; tauto), pos_down hu2]; omega
  have key2 : ∀ m < g.e1.count shift, ∃ m' < g.e1.count shift, g.e1.pos shift m = lo g.e1 + (m' : Nat) ∧
      g.e2.pos shift m = (if reversed g.e1.side g.e2.side = true then hi g.e2 + shift - (m' : Nat) else lo g.e2 + (m' : Nat)) := by
    intro m hm
    by_cases hu : g.e1.first ≤ g.e1.last
    · refine ⟨m, hm, pos_up hu m, ?_⟩
      by_cases hu2 : g.e2.first ≤ g.e2.last
      · rw [if_neg (by rw [hr]; tauto), pos_up hu2]
      · rw [if_pos (by rw [hr]; tauto), pos_down hu2]
    · refine ⟨g.e1.count shift - 1 - m, by omega, by rw [pos_down hu]; omega, ?_⟩
      by_cases hu2 : g.e2.first ≤ g.e2.last
      · rw [if_pos (by rw [hr]; tauto), pos_up hu2]; omega
      · rw [if_neg (by rw [hr]; tauto), pos_down hu2]; omega
  constructor
  · rintro ⟨k, hk, m, hm, rfl, rfl⟩
    obtain ⟨m', hm', e1, e2⟩ := key m hm
    refine ⟨k, hk, m', hm', ?_, ?_⟩
    · unfold Glue.out; rw [e1]
    · unfold Glue.inn; rw [e2]
  · rintro ⟨k, hk, m, hm, rfl, rfl⟩
    obtain ⟨m', hm', e1, e2⟩ := key2 m hm
    refine ⟨k, hk, m', hm', ?_, ?_⟩
    · unfold Glue.out; rw [e1]
    · unfold Glue.inn; rw [e2]

/-! ### Where the points are -/

theorem pos_range {shift : Nat} {e : Edge} {N m : Nat} (h1 : e.first < N) (h2 : e.last < N) (hm : m < e.count shift) :
    0 ≤ e.pos shift m ∧ e.pos shift m < (N : Int) + shift := by
  have c := count_eq shift e
  have hl : 0 ≤ lo e ∧ lo e < N := by unfold lo; omega
  have hh : 0 ≤ hi e ∧ hi e < N := by unfold hi; omega
  by_cases hu : e.first ≤ e.last
  · rw [pos_up hu]; omega
  · rw [pos_down hu]; omega

theorem out_fits {nx ny : Nat → Nat} {shift : Nat} {g : Glue} {m : Nat} (hv : g.e1.Valid (nx g.t1) (ny g.t1)) (hm : m < g.e1.count shift) :
    Fits (wx nx shift g.t1) (wx ny shift g.t1) (g.out nx ny shift m) := by
  unfold Edge.Valid Edge.vertical at hv
  unfold Fits Glue.out wx
  cases hs : g.e1.side <;> simp [hs] at hv <;> obtain ⟨a, b⟩ := pos_range hv.1 hv.2 hm <;> simp only [outside] <;> omega

/-- The point belongs to the tile itself -/
def Within (nx ny shift : Nat) (p : Int × Int) : Prop := 0 ≤ p.1 ∧ p.1 < (nx : Int) + shift ∧ 0 ≤ p.2 ∧ p.2 < (ny : Int) + shift

theorem inn_within {nx ny : Nat → Nat} {shift : Nat} {g : Glue} {m : Nat} (hx : 2 ≤ nx g.t2) (hy : 2 ≤ ny g.t2) (hv : g.e2.Valid (nx g.t2) (ny g.t2)) (hm : m < g.e2.count shift) :
    Within (nx g.t2) (ny g.t2) shift (g.inn nx ny shift m) := by
  unfold Edge.Valid Edge.vertical at hv
  unfold Within Glue.inn
  cases hs : g.e2.side <;> simp [hs] at hv <;> obtain ⟨a, b⟩ := pos_range hv.1 hv.2 hm <;> simp only [inside] <;> omega

theorem out_not_within {nx ny : Nat → Nat} {shift : Nat} {g : Glue} {m : Nat} : ¬ Within (nx g.t1) (ny g.t1) shift (g.out nx ny shift m) := by
  unfold Within Glue.out
  cases hs : g.e1.side <;> simp only [outside] <;> omega

theorem within_fits {nx ny : Nat → Nat} {shift t : Nat} {p : Int × Int} (h : Within (nx t) (ny t) shift p) : Fits (wx nx shift t) (wx ny shift t) p := by
  unfold Within at h; unfold Fits wx; omega

/-! ### All copies -/

theorem fill_main {F : Type} {nx ny : Nat → Nat} {shift nz ntiles : Nat} {gs : List Glue} (hs : ∀ g ∈ both gs, Supported nx ny ntiles g)
    (ho : ∀ g ∈ both gs, g.Oriented) (hcon : Consistent nx ny shift gs) {m m' : Mem F}
    (h : fill (gs.map (Glue.contact nx ny)) shift nz (fun t => (nx t : Int)) (fun t => (ny t : Int)) ntiles m = .ok m') :
    (∀ g ∈ both gs, ∀ i < g.e1.count shift, ∀ k < nz, value nx ny shift m' g.t1 k (g.out nx ny shift i) = value nx ny shift m g.t2 k (g.inn nx ny shift i)) ∧
    (∀ t k p, Fits (wx nx shift t) (wx ny shift t) p → (∀ g ∈ both gs, g.t1 = t → ∀ i < g.e1.count shift, k < nz → p ≠ g.out nx ny shift i) →
      value nx ny shift m' t k p = value nx ny shift m t k p) := by
  unfold fill at h
  cases hset : setupBoundary (gs.map (Glue.contact nx ny)) 1 shift (fun t => (nx t : Int)) (fun t => (ny t : Int)) ntiles with
  | error e => rw [hset] at h; simp at h
  | ok bs =>
    have hcnt := setup_counts hs hset
    have hcnt' : ∀ g ∈ both gs, g.e1.count shift = g.e2.count shift := by
      intro g hg
      rcases List.mem_append.1 hg with h | h
      · exact hcnt g h
      · obtain ⟨g', h', rfl⟩ := List.mem_map.1 h
        exact (hcnt g' h').symm
    rw [hset] at h
    simp only [Except.ok.injEq] at h
    rw [setup_ok hs hcnt] at hset
    simp only [Except.ok.injEq] at hset
    subst hset
    rw [updateTiles_eq] at h
    change exec nz (wx nx shift) (wx ny shift) _ m = m' at h
    have cm : ∀ g ∈ both gs, ∀ x y, (x, y) ∈ copies nz (wx nx shift) (wx ny shift) g.t1 (boundOf nx ny shift g) ↔
        ∃ k < nz, ∃ i < g.e1.count shift, x = flat (wx nx shift g.t1) (wx ny shift g.t1) (k : Nat) (g.out nx ny shift i) ∧
          y = flat (wx nx shift g.t2) (wx ny shift g.t2) (k : Nat) (g.inn nx ny shift i) := by
      intro g hg x y
      obtain ⟨_, _, _, _, a5, a6, a7, a8⟩ := hs g hg
      obtain ⟨_, _, _, _, b5, _⟩ := hs g.flip (flip_mem hg)
      exact copies_mem a5 b5 (ho g hg) a6 (fun e => (a7 e).symm) (fun e => (a8 e).symm) (hcnt' g hg) x y
    have fo : ∀ g ∈ both gs, ∀ i < g.e1.count shift, Fits (wx nx shift g.t1) (wx ny shift g.t1) (g.out nx ny shift i) :=
      fun g hg i hi => out_fits (hs g hg).2.2.2.1 hi
    have wi : ∀ g ∈ both gs, ∀ i < g.e1.count shift, Within (nx g.t2) (ny g.t2) shift (g.inn nx ny shift i) := by
      intro g hg i hi
      obtain ⟨_, b2, b3, b4, _⟩ := hs g.flip (flip_mem hg)
      exact inn_within b2 b3 b4 (by rw [← hcnt' g hg]; exact hi)
    obtain ⟨E1, E2⟩ := exec_spec (nz := nz) (wx := wx nx shift) (wy := wx ny shift) (steps 0 ((List.range ntiles).map (lists nx ny shift gs))) m
      (by
        intro s hs1 s' hs2 x y x' y' hxy hxy' ht hxe
        obtain ⟨g, hg, rfl⟩ := (mem_steps_lists hs s).1 hs1
        obtain ⟨g', hg', rfl⟩ := (mem_steps_lists hs s').1 hs2
        obtain ⟨k, _, i, hi, rfl, rfl⟩ := (cm g hg x y).1 hxy
        obtain ⟨k', _, i', hi', rfl, rfl⟩ := (cm g' hg' x' y').1 hxy'
        simp only [boundOf] at ht
        have hw := wi g' hg' i' hi'
        rw [← ht] at hxe hw
        obtain ⟨_, hp⟩ := flat_inj (fo g hg i hi) (within_fits hw) hxe
        rw [← hp] at hw
        exact out_not_within hw)
      (by
        intro s hs1 s' hs2 x y y' hxy hxy' ht
        obtain ⟨g, hg, rfl⟩ := (mem_steps_lists hs s).1 hs1
        obtain ⟨g', hg', rfl⟩ := (mem_steps_lists hs s').1 hs2
        obtain ⟨k, _, i, hi, rfl, rfl⟩ := (cm g hg x y).1 hxy
        obtain ⟨k', _, i', hi', hx', rfl⟩ := (cm g' hg' _ y').1 hxy'
        simp only at ht
        have hf := fo g' hg' i' hi'
        rw [← ht] at hx' hf
        obtain ⟨hk, hp⟩ := flat_inj (fo g hg i hi) hf hx'
        obtain ⟨c1, c2⟩ := hcon g hg g' hg' i i' hi hi' ht hp
        refine ⟨c1, ?_⟩
        rw [c1, c2, hk])
    rw [h] at E1 E2
    constructor
    · intro g hg i hi k hk
      rw [value_flat, value_flat]
      exact E1 _ ((mem_steps_lists hs _).2 ⟨g, hg, rfl⟩) _ _ ((cm g hg _ _).2 ⟨k, hk, i, hi, rfl, rfl⟩)
    · intro t k p hp hn
      rw [value_flat, value_flat]
      apply E2
      intro s hs1 ht y hy
      obtain ⟨g, hg, rfl⟩ := (mem_steps_lists hs s).1 hs1
      obtain ⟨k', hk', i, hi, hx, _⟩ := (cm g hg _ y).1 hy
      simp only at ht
      subst ht
      obtain ⟨hkk, hpp⟩ := flat_inj hp (fo g hg i hi) hx
      exact hn g hg rfl i hi (by omega) hpp

end Verif.FregridHalo
