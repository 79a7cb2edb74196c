import Verif.Spec.FregridHalo
import Mathlib.Tactic.Ring
import Mathlib.Data.List.Basic
/-
Lemmas about the halo of fregrid: execution of copies, order of the copies, the list of boundaries.
-/
namespace Verif.FregridHalo
open Verif.MosaicContact Verif.Spec Verif.Spec.FregridHalo

/-! ### Writing a buffer -/

theorem write_other {F : Type} (n : Nat) (L : List (Int × F)) (m : Mem F) (t : Nat) (x : Int) (h : t = n → x ∉ L.map Prod.fst) :
    L.foldl (fun m p => fun t x => if t = n ∧ x = p.1 then p.2 else m t x) m t x = m t x := by
  induction L generalizing m with
  | nil => rfl
  | cons p L ih =>
    rw [List.foldl_cons, ih]
    · rw [if_neg]
      rintro ⟨h1, h2⟩
      exact h h1 (by simp [h2])
    · intro h1 h2
      exact h h1 (by simp only [List.map_cons, List.mem_cons]; exact Or.inr h2)

theorem write_hit {F : Type} (n : Nat) (L : List (Int × F)) (m : Mem F) (x : Int) (v : F) (h : (x, v) ∈ L) (hu : ∀ w, (x, w) ∈ L → w = v) :
    L.foldl (fun m p => fun t x => if t = n ∧ x = p.1 then p.2 else m t x) m n x = v := by
  induction L generalizing m with
  | nil => simp at h
  | cons p L ih =>
    rw [List.foldl_cons]
    by_cases hx : x ∈ L.map Prod.fst
    · obtain ⟨⟨x', w⟩, hw, hxx⟩ := List.mem_map.1 hx
      simp only at hxx
      subst hxx
      have := hu w (List.mem_cons_of_mem _ hw)
      subst this
      exact ih _ hw (fun w' hw' => hu w' (List.mem_cons_of_mem _ hw'))
    · rw [write_other n L _ n x (fun _ => hx)]
      rcases List.mem_cons.1 h with h | h
      · rw [if_pos ⟨rfl, by rw [← h]⟩, ← h]
      · exact absurd (List.mem_map.2 ⟨_, h, rfl⟩) hx

/-! ### A list of copies -/

/-- What one boundary copies: index in the tile, index in the other tile -/
def copies (nz : Nat) (wx wy : Nat → Int) (n : Nat) (b : Bound) : List (Int × Int) :=
  (target nz (wx n) (wy n) b.to).zip (source nz (wx b.tile2) (wy b.tile2) b.rotate b.fr)

theorem updateOne_other {F : Type} {nz : Nat} {wx wy : Nat → Int} {n : Nat} {b : Bound} (m : Mem F) {t : Nat} {x : Int}
    (h : t = n → ∀ y, (x, y) ∉ copies nz wx wy n b) : updateOne nz wx wy n b m t x = m t x := by
  unfold updateOne
  apply write_other
  intro ht hx
  obtain ⟨⟨x', v⟩, hv, hxx⟩ := List.mem_map.1 hx
  simp only at hxx
  subst hxx
  rw [List.zip_map_right] at hv
  obtain ⟨⟨a, y⟩, hy, he⟩ := List.mem_map.1 hv
  simp only [Prod.map_apply, id_eq, Prod.mk.injEq] at he
  exact h ht y (by rw [← he.1]; exact hy)

theorem updateOne_hit {F : Type} {nz : Nat} {wx wy : Nat → Int} {n : Nat} {b : Bound} (m : Mem F) {x y : Int}
    (h : (x, y) ∈ copies nz wx wy n b) (hu : ∀ y', (x, y') ∈ copies nz wx wy n b → y' = y) : updateOne nz wx wy n b m n x = m b.tile2 y := by
  unfold updateOne
  apply write_hit
  · rw [List.zip_map_right]
    exact List.mem_map.2 ⟨(x, y), h, rfl⟩
  · intro w hw
    rw [List.zip_map_right] at hw
    obtain ⟨⟨a, y'⟩, hy, he⟩ := List.mem_map.1 hw
    simp only [Prod.map_apply, id_eq, Prod.mk.injEq] at he
    rw [← he.2, hu y' (by rw [← he.1]; exact hy)]

/-- Boundaries one after the other -/
def exec {F : Type} (nz : Nat) (wx wy : Nat → Int) (steps : List (Nat × Bound)) (m : Mem F) : Mem F :=
  steps.foldl (fun m s => updateOne nz wx wy s.1 s.2 m) m

theorem exec_spec {F : Type} {nz : Nat} {wx wy : Nat → Int} (steps : List (Nat × Bound)) (m : Mem F)
    (H1 : ∀ s ∈ steps, ∀ s' ∈ steps, ∀ x y x' y', (x, y) ∈ copies nz wx wy s.1 s.2 → (x', y') ∈ copies nz wx wy s'.1 s'.2 →
      s.1 = s'.2.tile2 → x ≠ y')
    (H2 : ∀ s ∈ steps, ∀ s' ∈ steps, ∀ x y y', (x, y) ∈ copies nz wx wy s.1 s.2 → (x, y') ∈ copies nz wx wy s'.1 s'.2 →
      s.1 = s'.1 → s.2.tile2 = s'.2.tile2 ∧ y = y') :
    (∀ s ∈ steps, ∀ x y, (x, y) ∈ copies nz wx wy s.1 s.2 → exec nz wx wy steps m s.1 x = m s.2.tile2 y) ∧
    (∀ t x, (∀ s ∈ steps, s.1 = t → ∀ y, (x, y) ∉ copies nz wx wy s.1 s.2) → exec nz wx wy steps m t x = m t x) := by
  induction steps generalizing m with
  | nil => exact ⟨by simp, fun _ _ _ => rfl⟩
  | cons s rest ih =>
    obtain ⟨ih1, ih2⟩ := ih (updateOne nz wx wy s.1 s.2 m)
      (fun a ha b hb => H1 a (List.mem_cons_of_mem _ ha) b (List.mem_cons_of_mem _ hb))
      (fun a ha b hb => H2 a (List.mem_cons_of_mem _ ha) b (List.mem_cons_of_mem _ hb))
    have hc : exec nz wx wy (s :: rest) m = exec nz wx wy rest (updateOne nz wx wy s.1 s.2 m) := rfl
    have hs := List.mem_cons_self (a := s) (l := rest)
    -- sources are not changed by the first boundary
    have hsrc : ∀ s' ∈ s :: rest, ∀ x y, (x, y) ∈ copies nz wx wy s'.1 s'.2 → updateOne nz wx wy s.1 s.2 m s'.2.tile2 y = m s'.2.tile2 y := by
      intro s' hs' x y hxy
      apply updateOne_other
      intro ht y' hy'
      exact H1 s hs s' hs' y y' x y hy' hxy ht.symm rfl
    rw [hc]
    constructor
    · intro s' hs' x y hxy
      rcases List.mem_cons.1 hs' with rfl | hr
      · by_cases hex : ∃ r ∈ rest, r.1 = s'.1 ∧ ∃ y', (x, y') ∈ copies nz wx wy r.1 r.2
        · obtain ⟨r, hr, ht, y', hy'⟩ := hex
          have h3 := ih1 r hr x y' hy'
          rw [ht] at h3
          rw [h3, hsrc r (List.mem_cons_of_mem _ hr) x y' hy']
          obtain ⟨h1, h2⟩ := H2 r (List.mem_cons_of_mem _ hr) s' hs x y' y hy' hxy ht
          rw [h1, h2]
        · rw [ih2 s'.1 x (fun r hr ht y' hy' => hex ⟨r, hr, ht, y', hy'⟩)]
          exact updateOne_hit m hxy (fun y' hy' => (H2 s' hs s' hs x y' y hy' hxy rfl).2)
      · rw [ih1 s' hr x y hxy, hsrc s' (List.mem_cons_of_mem _ hr) x y hxy]
    · intro t x hx
      rw [ih2 t x (fun r hr => hx r (List.mem_cons_of_mem _ hr))]
      apply updateOne_other
      intro ht y
      exact hx s hs ht.symm y

/-! ### Flat indices -/

theorem div_unique {W a b i i' : Int} (h0 : 0 ≤ i) (h1 : i < W) (h2 : 0 ≤ i') (h3 : i' < W) (h : a * W + i = b * W + i') : a = b ∧ i = i' := by
  have e1 : (a * W + i) % W = i := by rw [Int.add_comm, Int.add_mul_emod_self_right]; exact Int.emod_eq_of_lt h0 h1
  have e2 : (b * W + i') % W = i' := by rw [Int.add_comm, Int.add_mul_emod_self_right]; exact Int.emod_eq_of_lt h2 h3
  have hi : i = i' := by rw [← e1, ← e2, h]
  refine ⟨?_, hi⟩
  subst hi
  have : a * W = b * W := by omega
  exact Int.eq_of_mul_eq_mul_right (by omega) this

/-- Place of a point in the array -/
def flat (W H k : Int) (p : Int × Int) : Int := k * (W * H) + (p.2 + 1) * W + (p.1 + 1)

/-- The point is in the array -/
def Fits (W H : Int) (p : Int × Int) : Prop := -1 ≤ p.1 ∧ p.1 + 1 < W ∧ -1 ≤ p.2 ∧ p.2 + 1 < H

theorem flat_inj {W H k k' : Int} {p q : Int × Int} (hp : Fits W H p) (hq : Fits W H q) (h : flat W H k p = flat W H k' q) : k = k' ∧ p = q := by
  obtain ⟨p1, p2, p3, p4⟩ := hp
  obtain ⟨q1, q2, q3, q4⟩ := hq
  unfold flat at h
  have h' : (k * H + (p.2 + 1)) * W + (p.1 + 1) = (k' * H + (q.2 + 1)) * W + (q.1 + 1) := by
    have a : ∀ (z : Int) (r : Int × Int), (z * H + (r.2 + 1)) * W + (r.1 + 1) = z * (W * H) + (r.2 + 1) * W + (r.1 + 1) := by intros; ring
    rw [a, a]; exact h
  obtain ⟨h1, h2⟩ := div_unique (by omega) (by omega) (by omega) (by omega) h'
  obtain ⟨h3, h4⟩ := div_unique (by omega) (by omega) (by omega) (by omega) h1
  exact ⟨h3, Prod.ext (by omega) (by omega)⟩

/-! ### The order of the copies -/

theorem up_single (a : Int) : up a a = [a] := by
  unfold up
  rw [show (a - a + 1).toNat = 1 by omega]
  simp

theorem down_single (a : Int) : down a a = [a] := by
  unfold down
  rw [show (a - a + 1).toNat = 1 by omega]
  simp

theorem zip_levels {α β : Type} (ks : List Nat) (N : Nat) (f : Nat → Nat → α) (g : Nat → Nat → β) :
    (ks.flatMap fun k => (List.range N).map (f k)).zip (ks.flatMap fun k => (List.range N).map (g k)) =
      ks.flatMap fun k => (List.range N).map fun m => (f k m, g k m) := by
  induction ks with
  | nil => rfl
  | cons k ks ih =>
    rw [List.flatMap_cons, List.flatMap_cons, List.flatMap_cons, List.zip_append (by simp), ih, List.zip_map']

/-- Lower and upper end of an edge -/
def lo (e : Edge) : Int := min (e.first : Int) (e.last : Int)
def hi (e : Edge) : Int := max (e.first : Int) (e.last : Int)

/-- One end of a contact as an entry of the arrays -/
def endOf (nx ny : Nat → Nat) (t : Nat) (e : Edge) : End :=
  ⟨t, ((e.part (nx t) (ny t)).x.model).1, ((e.part (nx t) (ny t)).x.model).2, ((e.part (nx t) (ny t)).y.model).1, ((e.part (nx t) (ny t)).y.model).2⟩

theorem run_model (e : Edge) : e.run.model = ((e.first : Int), (e.last : Int)) := by
  unfold Edge.run
  by_cases h : e.first ≤ e.last
  · rw [if_pos h]; rfl
  · rw [if_neg h]; rfl

theorem endOf_west {nx ny : Nat → Nat} {t : Nat} {e : Edge} (h : e.side = .west) : endOf nx ny t e = ⟨t, 0, 0, e.first, e.last⟩ := by
  unfold endOf Edge.part
  simp only [h, run_model]
  rfl

theorem endOf_east {nx ny : Nat → Nat} {t : Nat} {e : Edge} (h : e.side = .east) : endOf nx ny t e = ⟨t, (nx t - 1 : Nat), (nx t - 1 : Nat), e.first, e.last⟩ := by
  unfold endOf Edge.part
  simp only [h, run_model]
  rfl

theorem endOf_south {nx ny : Nat → Nat} {t : Nat} {e : Edge} (h : e.side = .south) : endOf nx ny t e = ⟨t, e.first, e.last, 0, 0⟩ := by
  unfold endOf Edge.part
  simp only [h, run_model]
  rfl

theorem endOf_north {nx ny : Nat → Nat} {t : Nat} {e : Edge} (h : e.side = .north) : endOf nx ny t e = ⟨t, e.first, e.last, (ny t - 1 : Nat), (ny t - 1 : Nat)⟩ := by
  unfold endOf Edge.part
  simp only [h, run_model]
  rfl

theorem direction_endOf {nx ny : Nat → Nat} {t : Nat} {e : Edge} (hx : 2 ≤ nx t) (hy : 2 ≤ ny t) (hne : e.first ≠ e.last) :
    direction (endOf nx ny t e) = .ok e.side := by
  have hne' : (e.first : Int) ≠ (e.last : Int) := by omega
  cases hs : e.side with
  | west => rw [endOf_west hs]; simp [direction, hne']
  | east =>
    rw [endOf_east hs]
    have : nx t - 1 ≠ 0 := by omega
    simp [direction, hne', this]
  | south => rw [endOf_south hs]; simp [direction, hne']
  | north =>
    rw [endOf_north hs]
    have : ny t - 1 ≠ 0 := by omega
    simp [direction, hne', this]

/-- Row of places along an edge, in the order of the loops -/
theorem target_line {nx ny : Nat → Nat} {t : Nat} {e : Edge} (shift nz : Nat) :
    target nz ((nx t : Int) + shift + 2) ((ny t : Int) + shift + 2) (toBox 1 shift (nx t) (ny t) e.side (endOf nx ny t e)) =
      (List.range nz).flatMap fun (k : Nat) => (List.range (e.count shift)).map fun (m : Nat) =>
        flat ((nx t : Int) + shift + 2) ((ny t : Int) + shift + 2) k (outside (nx t) (ny t) shift e.side (lo e + m)) := by
  have hc : (hi e + 1 + shift - (lo e + 1) + 1).toNat = e.count shift := by
    unfold hi lo Edge.count; omega
  unfold target
  congr 1
  funext k
  cases hs : e.side with
  | west =>
    rw [endOf_west hs]
    simp only [toBox, show ((1 : Int) - 1) = 0 by rfl, up_single, List.map_cons, List.map_nil]
    rw [← List.map_eq_flatMap]
    unfold up
    rw [List.map_map]
    change List.map _ (List.range (hi e + 1 + shift - (lo e + 1) + 1).toNat) = _
    rw [hc]
    apply List.map_congr_left
    intro m _
    simp only [Function.comp_apply, flat, outside, lo]
    ring
  | east =>
    rw [endOf_east hs]
    simp only [toBox, show ((nx t : Int) + shift + 1 + 1 - 1) = (nx t : Int) + shift + 1 by ring, up_single, List.map_cons, List.map_nil]
    rw [← List.map_eq_flatMap]
    unfold up
    rw [List.map_map]
    change List.map _ (List.range (hi e + 1 + shift - (lo e + 1) + 1).toNat) = _
    rw [hc]
    apply List.map_congr_left
    intro m _
    simp only [Function.comp_apply, flat, outside, lo]
    ring
  | south =>
    rw [endOf_south hs]
    simp only [toBox, show ((1 : Int) - 1) = 0 by rfl, up_single, List.flatMap_cons, List.flatMap_nil, List.append_nil]
    unfold up
    rw [List.map_map]
    change List.map _ (List.range (hi e + 1 + shift - (lo e + 1) + 1).toNat) = _
    rw [hc]
    apply List.map_congr_left
    intro m _
    simp only [Function.comp_apply, flat, outside, lo]
    ring
  | north =>
    rw [endOf_north hs]
    simp only [toBox, show ((ny t : Int) + shift + 1 + 1 - 1) = (ny t : Int) + shift + 1 by ring, up_single, List.flatMap_cons, List.flatMap_nil, List.append_nil]
    unfold up
    rw [List.map_map]
    change List.map _ (List.range (hi e + 1 + shift - (lo e + 1) + 1).toNat) = _
    rw [hc]
    apply List.map_congr_left
    intro m _
    simp only [Function.comp_apply, flat, outside, lo]
    ring

/-- The pairs of sides for which the program reverses the order -/
def reversed (a b : Side) : Bool := rotation a b ≠ .zero

theorem source_line {nx ny : Nat → Nat} {t t1 : Nat} {e : Edge} {s : Side} (shift nz : Nat) (hx : e.side = .east → nx t1 = nx t) (hy : e.side = .north → ny t1 = ny t) :
    source nz ((nx t : Int) + shift + 2) ((ny t : Int) + shift + 2) (rotation s e.side) (frBox 1 shift (nx t1) (ny t1) e.side (endOf nx ny t e)) =
      (List.range nz).flatMap fun (k : Nat) => (List.range (e.count shift)).map fun (m : Nat) =>
        flat ((nx t : Int) + shift + 2) ((ny t : Int) + shift + 2) k (inside (nx t) (ny t) shift e.side (if reversed s e.side then hi e + shift - m else lo e + m)) := by
  have hc : (hi e + 1 + shift - (lo e + 1) + 1).toNat = e.count shift := by
    unfold hi lo Edge.count; omega
  have z1 : ((1 : Int) + shift + 1 - 1) = 1 + shift := by ring
  have z2 : ((nx t : Int) - 1 + 1) = nx t := by ring
  have z3 : ((ny t : Int) - 1 + 1) = ny t := by ring
  have fin : ∀ (f g : Nat → Int), (∀ m, f m = g m) →
      List.map f (List.range (hi e + 1 + shift - (lo e + 1) + 1).toNat) = List.map g (List.range (e.count shift)) := by
    intro f g h
    rw [hc]
    exact List.map_congr_left (fun m _ => h m)
  unfold source
  congr 1
  funext k
  cases hs : e.side with
  | west =>
    rw [endOf_west hs]
    cases s <;> simp only [reversed, rotation, frBox, z1, up_single, down_single, List.map_cons, List.map_nil, List.flatMap_cons, List.flatMap_nil, List.append_nil] <;>
      (try rw [← List.map_eq_flatMap]) <;> (try unfold up) <;> (try unfold down) <;> rw [List.map_map] <;> refine fin _ _ (fun m => ?_) <;>
      simp [flat, inside, lo, hi] <;> ring
  | east =>
    rw [endOf_east hs, hx hs]
    cases s <;> simp only [reversed, rotation, frBox, z2, up_single, down_single, List.map_cons, List.map_nil, List.flatMap_cons, List.flatMap_nil, List.append_nil] <;>
      (try rw [← List.map_eq_flatMap]) <;> (try unfold up) <;> (try unfold down) <;> rw [List.map_map] <;> refine fin _ _ (fun m => ?_) <;>
      simp [flat, inside, lo, hi] <;> left <;> ring
  | south =>
    rw [endOf_south hs]
    cases s <;> simp only [reversed, rotation, frBox, z1, up_single, down_single, List.map_cons, List.map_nil, List.flatMap_cons, List.flatMap_nil, List.append_nil] <;>
      (try rw [← List.map_eq_flatMap]) <;> (try unfold up) <;> (try unfold down) <;> rw [List.map_map] <;> refine fin _ _ (fun m => ?_) <;>
      simp [flat, inside, lo, hi] <;> ring
  | north =>
    rw [endOf_north hs, hy hs]
    cases s <;> simp only [reversed, rotation, frBox, z3, up_single, down_single, List.map_cons, List.map_nil, List.flatMap_cons, List.flatMap_nil, List.append_nil] <;>
      (try rw [← List.map_eq_flatMap]) <;> (try unfold up) <;> (try unfold down) <;> rw [List.map_map] <;> refine fin _ _ (fun m => ?_) <;>
      simp [flat, inside, lo, hi] <;> ring

end Verif.FregridHalo
