import Verif.Model.BoundaryType
import Verif.Props.Contact
import Verif.Props.MosaicContact
/-
C146: boundary conditions of a mosaic of one tile.
-/
namespace Verif
namespace Spec.BoundaryType
open Contact
variable {K : Type*} [Field K] [LinearOrder K] [IsStrictOrderedRing K]

/-- Every point of side `s1` is the point with the same number on side `s2`, perhaps one period away, and no other one. -/
def Joined (t : Tile K) (s1 s2 : Side) (px py : K) : Prop :=
  ∀ i j, i < t.size s1 → j < t.size s2 → (SamePlace px py (t.bound s1 i) (t.bound s2 j) ↔ i = j)

/-- The sides have no point in common. -/
def Apart (t : Tile K) (s1 s2 : Side) (px py : K) : Prop :=
  ∀ i j, i < t.size s1 → j < t.size s2 → ¬SamePlace px py (t.bound s1 i) (t.bound s2 j)

/-- The northern side is folded: its points meet their mirror images; one pair may be on opposite meridians (at the pole). -/
def Folded (t : Tile K) : Prop :=
  (∀ i < t.nx / 2, SameLatitude (t.bound .north i) (t.bound .north (t.nx - i - 1)) ∧
    (NearMeridian (t.bound .north i) (t.bound .north (t.nx - i - 1)) ∨ OppositeMeridian (t.bound .north i) (t.bound .north (t.nx - i - 1)))) ∧
  (∀ i j, i < j → j < t.nx / 2 → NearMeridian (t.bound .north i) (t.bound .north (t.nx - i - 1)) ∨ NearMeridian (t.bound .north j) (t.bound .north (t.nx - j - 1)))

/-- A grid of `m` times `n` cells, with names that can be written and read, of sizes that can be written. -/
structure Plain (t : Tile K) (m n : Nat) (mosaic tile : List Char) : Prop where
  nx : t.nx = 2 * m + 1
  ny : t.ny = 2 * n + 1
  m1 : 1 ≤ m
  n1 : 1 ≤ n
  mbig : 2 * m < 10 ^ 20
  nbig : 2 * n < 10 ^ 20
  len : mosaic.length + tile.length ≤ 120
  mosaic : PlainName mosaic
  tile : PlainName tile

end Spec.BoundaryType

namespace BoundaryType
open Spec Spec.BoundaryType Contact MosaicContact
open Provenance (Err Word)
variable {K : Type*} [Field K] [LinearOrder K] [IsStrictOrderedRing K]

private theorem joined_some {t : Tile K} {s1 s2 : Side} {px py : K} (h : Joined t s1 s2 px py) (hs : t.size s1 = t.size s2) (h2 : 2 ≤ t.size s1) :
    sideContact t t s1 s2 px py = some (onSide t s1 (1, t.size s1 - 1), onSide t s2 (1, t.size s1 - 1)) := by
  have hm : ∀ i, i < t.size s1 → Match t t s1 s2 px py i i := fun i hi => ⟨hi, hs ▸ hi, (h i i hi (hs ▸ hi)).2 rfl⟩
  have he : ∀ i j, Match t t s1 s2 px py i j → i = j := fun i j hh => (h i j hh.1 hh.2.1).1 hh.2.2
  cases hc : sideContact t t s1 s2 px py with
  | none =>
    exfalso
    rcases sideContact_none hc with h1 | ⟨a, b, c, d, ma, mb, hx, hall⟩
    · exact h1 0 0 (hm 0 (by omega))
    · have e1 := he _ _ ma
      have e2 := he _ _ mb
      have q1 := hall _ _ (hm 0 (by omega))
      have q2 := hall _ _ (hm (t.size s1 - 1) (by omega))
      omega
  | some p =>
    obtain ⟨a, b, c, d, hab, hcd, ma, mb, hall, hp⟩ := sideContact_some hc
    have e1 := he _ _ ma
    have e2 := he _ _ mb
    have q1 := hall _ _ (hm 0 (by omega))
    have q2 := hall _ _ (hm (t.size s1 - 1) (by omega))
    have q3 := mb.1
    have ea : a = 0 := by omega
    have eb : b = t.size s1 - 1 := by omega
    subst e1 e2 ea eb
    rw [hp]
    unfold cellsBetween
    rw [if_pos hab]

private theorem apart_none {t : Tile K} {s1 s2 : Side} {px py : K} (h : Apart t s1 s2 px py) : sideContact t t s1 s2 px py = none := by
  cases hc : sideContact t t s1 s2 px py with
  | none => rfl
  | some p =>
    obtain ⟨a, b, c, d, _, _, ma, _⟩ := sideContact_some hc
    exact absurd ma.2.2 (h a c ma.1 ma.2.1)

private theorem align_self (t : Tile K) (px py : K) : alignContact true t t px py =
    (sideContact t t .east .west px 0).toList ++ ((sideContact t t .south .north 0 py).toList ++ (foldContact t).toList) := by
  have e : ((sidePairs px py).filter fun p => !(true && p.1)) = [(false, Side.east, Side.west, px, 0), (false, Side.south, Side.north, 0, py)] := rfl
  unfold alignContact
  rw [e, List.filterMap_cons, List.filterMap_cons, List.filterMap_nil]
  simp only [if_pos]
  cases sideContact t t .east .west px 0 <;> cases sideContact t t .south .north 0 py <;> rfl

private theorem folded_iff (t : Tile K) : Folded t ↔ ∃ p, foldContact t = some p := by
  constructor
  · intro h
    exact ⟨_, (C37_fold t _).2 ⟨h, rfl⟩⟩
  · rintro ⟨p, hp⟩
    exact ((C37_fold t p).1 hp).1

private theorem dec_length : ∀ (k n : Nat), n < 10 ^ (k + 1) → (dec n).length ≤ k + 1 := by
  intro k
  induction k with
  | zero =>
    intro n hn
    rw [dec, dif_pos (by simpa using hn)]
    simp
  | succ k ih =>
    intro n hn
    rw [dec]
    by_cases h : n < 10
    · rw [dif_pos h]; simp
    · rw [dif_neg h, List.length_append]
      have := ih (n / 10) (by rw [pow_succ] at hn; omega)
      simp only [List.length_cons, List.length_nil]
      omega

/-- The parts of a contact as cells. -/
private structure Cells where
  p : TilePart
  q : TilePart

private def Cells.Ok (c : Cells) : Prop :=
  (c.p.x.Valid ∧ c.p.y.Valid) ∧ (c.q.x.Valid ∧ c.q.y.Valid) ∧ ¬(c.p.x.isLine ∧ c.p.y.isLine) ∧ ¬(c.q.x.isLine ∧ c.q.y.isLine) ∧
    ((c.p.x.isLine ∨ c.p.y.isLine) ↔ (c.q.x.isLine ∨ c.q.y.isLine))

/-- Numbers of a part that are small. -/
private def Small (p : Part) : Prop := p.is < 10 ^ 20 ∧ p.ie < 10 ^ 20 ∧ p.js < 10 ^ 20 ∧ p.je < 10 ^ 20

private theorem row_index {p : Part × Part} (h1 : Small p.1) (h2 : Small p.2) : row (indexString (toIx p)) = some (indexString (toIx p)) := by
  have d := fun n (h : n < 10 ^ 20) => dec_length 19 n h
  have a1 := d _ h1.1
  have a2 := d _ h1.2.1
  have a3 := d _ h1.2.2.1
  have a4 := d _ h1.2.2.2
  have b1 := d _ h2.1
  have b2 := d _ h2.2.1
  have b3 := d _ h2.2.2.1
  have b4 := d _ h2.2.2.2
  have e : ∀ n : Nat, printInt (n : Int) = dec n := fun n => rfl
  unfold row
  rw [if_pos]
  unfold indexString toIx stringLen
  simp only [e, List.length_append, List.length_cons]
  omega

private theorem row_contact {mosaic tile : Word} (h : mosaic.length + tile.length ≤ 120) : row (contactString mosaic tile tile) = some (contactString mosaic tile tile) := by
  unfold row
  rw [if_pos]
  unfold contactString stringLen
  simp only [List.length_append, List.length_cons]
  omega

/-- Small contacts are written. -/
private theorem rows_ok {mosaic tile : Word} (h : mosaic.length + tile.length ≤ 120) (l : List (Part × Part)) (hl : ∀ p ∈ l, Small p.1 ∧ Small p.2) :
    rows mosaic tile l = .ok (l.map fun p => (contactString mosaic tile tile, indexString (toIx p))) := by
  induction l with
  | nil => rfl
  | cons p l ih =>
    rw [rows, row_contact h, row_index (hl p List.mem_cons_self).1 (hl p List.mem_cons_self).2, ih fun q hq => hl q (List.mem_cons_of_mem _ hq)]
    rfl

private theorem read_one {mosaic tile : Word} (hm : PlainName mosaic) (ht : PlainName tile) (hlen : mosaic.length + tile.length ≤ 120) {p : Part × Part} (h1 : Small p.1) (h2 : Small p.2)
    {P Q : TilePart} (e : toIx p = superIx P Q) (ok : Cells.Ok ⟨P, Q⟩) :
    readContact [tile] (contactString mosaic tile tile) (indexString (toIx p)) = .ok ⟨1, 1, modelIx P Q⟩ := by
  obtain ⟨o1, o2, o3, o4, o5⟩ := ok
  exact C50_round_trip [tile] mosaic 0 0 tile tile P Q (by simpa using ht) (by simp) hm rfl rfl o1 o2 o3 o4 o5 _ _ (row_contact hlen) (by rw [← e]; exact row_index h1 h2)

/-- A contact that is found, with what is read for it. -/
private def Known (mosaic tile : Word) (p : Part × Part) (x : Ix) : Prop :=
  Small p.1 ∧ Small p.2 ∧ ∃ c, readContact [tile] (contactString mosaic tile tile) (indexString (toIx p)) = .ok c ∧ c.ix = x

private theorem known {mosaic tile : Word} (hm : PlainName mosaic) (ht : PlainName tile) (hlen : mosaic.length + tile.length ≤ 120) {p : Part × Part} (h1 : Small p.1) (h2 : Small p.2)
    {P Q : TilePart} (e : toIx p = superIx P Q) (ok : Cells.Ok ⟨P, Q⟩) : Known mosaic tile p (modelIx P Q) :=
  ⟨h1, h2, _, read_one hm ht hlen h1 h2 e ok, rfl⟩

private theorem read_list {mosaic tile : Word} {l : List (Part × Part)} {xs : List Ix} (h : List.Forall₂ (Known mosaic tile) l xs) :
    readAll [tile] (l.map fun p => (contactString mosaic tile tile, indexString (toIx p))) = .ok xs := by
  induction h with
  | nil => rfl
  | cons hp _ ih =>
    obtain ⟨_, _, c, hc, he⟩ := hp
    rw [List.map_cons, readAll, hc]
    simp only
    rw [ih, he]

/-- The whole way for a list of known contacts. -/
private theorem through {mosaic tile : Word} (hlen : mosaic.length + tile.length ≤ 120) {t : Tile K} {px py : K} {l : List (Part × Part)} {xs : List Ix}
    (hl : alignContact true t t px py = l) (h : List.Forall₂ (Known mosaic tile) l xs) (h2 : l.length ≤ 2) :
    ∃ f, solo mosaic tile t px py = .ok f ∧ boundaryType f = contacts ⟨false, false, false⟩ xs := by
  have hs : ∀ p ∈ l, Small p.1 ∧ Small p.2 := by
    clear hl h2
    intro p hp
    induction h with
    | nil => simp at hp
    | cons hk _ ih =>
      rcases List.mem_cons.1 hp with rfl | hp
      · exact ⟨hk.1, hk.2.1⟩
      · exact ih hp
  unfold solo
  rw [hl, rows_ok hlen l hs]
  cases h with
  | nil => exact ⟨_, rfl, rfl⟩
  | @cons p x l xs hk ht =>
    refine ⟨_, rfl, ?_⟩
    unfold boundaryType
    rw [if_neg (by simp)]
    simp only
    rw [if_neg (by simp only [List.length_cons, List.length_map] at h2 ⊢; omega), read_list (List.Forall₂.cons hk ht)]

/-- What is read for the three kinds of contacts. -/
private def ixX (m n : Nat) : Ix := ⟨((m - 1 : Nat) : Int), ((m - 1 : Nat) : Int), 0, ((n - 1 : Nat) : Int), 0, 0, 0, ((n - 1 : Nat) : Int)⟩
private def ixY (m n : Nat) : Ix := ⟨0, ((m - 1 : Nat) : Int), 0, 0, 0, ((m - 1 : Nat) : Int), ((n - 1 : Nat) : Int), ((n - 1 : Nat) : Int)⟩
private def ixF (k n : Nat) : Ix :=
  ⟨0, ((k - 1 : Nat) : Int), ((n - 1 : Nat) : Int), ((n - 1 : Nat) : Int), ((2 * k - 1 : Nat) : Int), (k : Int), ((n - 1 : Nat) : Int), ((n - 1 : Nat) : Int)⟩

private theorem found_x {t : Tile K} {m n : Nat} {mosaic tile : Word} (h : Plain t m n mosaic tile) {px : K} (hj : Joined t .east .west px 0) :
    ∃ p, sideContact t t .east .west px 0 = some p ∧ Known mosaic tile p (ixX m n) := by
  have hy := h.ny
  have hx := h.nx
  have h1 := h.m1
  have h2 := h.n1
  have h3 := h.mbig
  have h4 := h.nbig
  refine ⟨_, joined_some hj rfl (show 2 ≤ t.ny by omega), ?_⟩
  have e : t.size .east - 1 = 2 * n := by show t.ny - 1 = _; omega
  rw [e]
  refine known (P := ⟨.line (m - 1) true, .up 0 (n - 1)⟩) (Q := ⟨.line 0 false, .up 0 (n - 1)⟩) h.mosaic h.tile h.len ?_ ?_ ?_ ?_
  · unfold Small onSide; simp only; omega
  · unfold Small onSide; simp only; omega
  · simp only [toIx, onSide, superIx, AxisPart.super, Ix.mk.injEq]; omega
  · simp [Cells.Ok, AxisPart.Valid, AxisPart.isLine]

private theorem found_y {t : Tile K} {m n : Nat} {mosaic tile : Word} (h : Plain t m n mosaic tile) {py : K} (hj : Joined t .south .north 0 py) :
    ∃ p, sideContact t t .south .north 0 py = some p ∧ Known mosaic tile p (ixY m n) := by
  have hy := h.ny
  have hx := h.nx
  have h1 := h.m1
  have h2 := h.n1
  have h3 := h.mbig
  have h4 := h.nbig
  refine ⟨_, joined_some hj rfl (show 2 ≤ t.nx by omega), ?_⟩
  have e : t.size .south - 1 = 2 * m := by show t.nx - 1 = _; omega
  rw [e]
  refine known (P := ⟨.up 0 (m - 1), .line 0 false⟩) (Q := ⟨.up 0 (m - 1), .line (n - 1) true⟩) h.mosaic h.tile h.len ?_ ?_ ?_ ?_
  · unfold Small onSide; simp only; omega
  · unfold Small onSide; simp only; omega
  · simp only [toIx, onSide, superIx, AxisPart.super, Ix.mk.injEq]; omega
  · simp [Cells.Ok, AxisPart.Valid, AxisPart.isLine]

private theorem found_fold {t : Tile K} {k n : Nat} {mosaic tile : Word} (h : Plain t (2 * k) n mosaic tile) (hf : Folded t) :
    ∃ p, foldContact t = some p ∧ Known mosaic tile p (ixF k n) := by
  have hy := h.ny
  have hx := h.nx
  have h1 := h.m1
  have h2 := h.n1
  have h3 := h.mbig
  have h4 := h.nbig
  refine ⟨_, (C37_fold t _).2 ⟨hf, rfl⟩, ?_⟩
  refine known (P := ⟨.up 0 (k - 1), .line (n - 1) true⟩) (Q := ⟨.down (2 * k - 1) k, .line (n - 1) true⟩) h.mosaic h.tile h.len ?_ ?_ ?_ ?_
  · unfold Small onSide; simp only; omega
  · unfold Small onSide; simp only; omega
  · simp only [toIx, onSide, superIx, AxisPart.super, Ix.mk.injEq]; omega
  · simp only [Cells.Ok, AxisPart.Valid, AxisPart.isLine]; simp; omega

private theorem not_folded {t : Tile K} (h : ¬Folded t) : foldContact t = none := by
  cases hc : foldContact t with
  | none => rfl
  | some p => exact absurd ((folded_iff t).2 ⟨p, hc⟩) h

private theorem not_both {t : Tile K} {s1 s2 : Side} {px py : K} (h1 : 0 < t.size s1) (h2 : 0 < t.size s2) (h : Apart t s1 s2 px py) : ¬Joined t s1 s2 px py :=
  fun hj => h 0 0 h1 h2 ((hj 0 0 h1 h2).2 rfl)

/-- From the grid to the boundary conditions: the mosaic made for a grid of at least 2 times 2 cells, whose sides meet in all points or in none, is read with the conditions of the
grid: cyclic in x if the eastern and the western side meet, cyclic in y if the southern and the northern side meet, tripolar if the northern side is folded. What is missing: smaller
grids and folds of an odd number of cells, for which it is false. -/
theorem C146_boundary_partial {t : Tile K} {m n : Nat} {mosaic tile : Word} (h : Plain t m n mosaic tile) (hm : 2 ≤ m) (hn : 2 ≤ n) (px py : K)
    (hx : Joined t .east .west px 0 ∨ Apart t .east .west px 0) (hy : Joined t .south .north 0 py ∨ Apart t .south .north 0 py)
    (hf : Folded t → m % 2 = 0 ∧ 4 ≤ m) (h3 : ¬(Joined t .east .west px 0 ∧ Joined t .south .north 0 py ∧ Folded t)) :
    ∃ f b, solo mosaic tile t px py = .ok f ∧ boundaryType f = .ok b ∧ (b.cyclicX = true ↔ Joined t .east .west px 0) ∧
      (b.cyclicY = true ↔ Joined t .south .north 0 py) ∧ (b.tripolar = true ↔ Folded t) := by
  have s1 : 0 < t.size .east := by show 0 < t.ny; have := h.ny; omega
  have s2 : 0 < t.size .south := by show 0 < t.nx; have := h.nx; omega
  have s3 : 0 < t.size .west := s1
  have s4 : 0 < t.size .north := s2
  have cX : ∀ b, contact b (ixX m n) = .ok { b with cyclicX := true } := by
    intro b
    unfold contact ixX
    simp
  have cY : ∀ b, contact b (ixY m n) = .ok { b with cyclicY := true } := by
    intro b
    unfold contact ixY
    simp only
    rw [if_neg (by omega), if_pos trivial, if_neg (by simp), if_neg (by omega)]
  have key : ∀ (l : List (Part × Part)) (xs : List Ix), alignContact true t t px py = l → List.Forall₂ (Known mosaic tile) l xs → l.length ≤ 2 → ∀ b,
      contacts ⟨false, false, false⟩ xs = .ok b → ((b.cyclicX = true ↔ Joined t .east .west px 0) ∧
      (b.cyclicY = true ↔ Joined t .south .north 0 py) ∧ (b.tripolar = true ↔ Folded t)) →
      ∃ f b, solo mosaic tile t px py = .ok f ∧ boundaryType f = .ok b ∧ (b.cyclicX = true ↔ Joined t .east .west px 0) ∧
      (b.cyclicY = true ↔ Joined t .south .north 0 py) ∧ (b.tripolar = true ↔ Folded t) := by
    intro l xs hl hk h2 b hb hg
    obtain ⟨f, hf1, hf2⟩ := through h.len hl hk h2
    exact ⟨f, b, hf1, hf2.trans hb, hg⟩
  have al := align_self t px py
  by_cases hfo : Folded t
  · obtain ⟨e1, e2⟩ := hf hfo
    obtain ⟨k, rfl⟩ : ∃ k, m = 2 * k := ⟨m / 2, by omega⟩
    obtain ⟨pf, f1, f2⟩ := found_fold h hfo
    have cF : ∀ b, contact b (ixF k n) = .ok { b with tripolar := true } := by
      intro b
      unfold contact ixF
      simp only
      rw [if_neg (by omega), if_pos trivial, if_neg (by simp), if_pos trivial]
    rw [f1] at al
    rcases hx with hx | hx <;> rcases hy with hy | hy
    · exact absurd ⟨hx, hy, hfo⟩ h3
    · obtain ⟨p1, a1, a2⟩ := found_x h hx
      rw [a1, apart_none hy] at al
      refine key _ _ al (.cons a2 (.cons f2 .nil)) (by simp) ⟨true, false, true⟩ ?_ ?_
      · rw [contacts, cX]; simp only; rw [contacts, cF]; rfl
      · simp [hx, hfo, not_both s2 s4 hy]
    · obtain ⟨p1, a1, a2⟩ := found_y h hy
      rw [a1, apart_none hx] at al
      refine key _ _ al (.cons a2 (.cons f2 .nil)) (by simp) ⟨false, true, true⟩ ?_ ?_
      · rw [contacts, cY]; simp only; rw [contacts, cF]; rfl
      · simp [hy, hfo, not_both s1 s3 hx]
    · rw [apart_none hy, apart_none hx] at al
      refine key _ _ al (.cons f2 .nil) (by simp) ⟨false, false, true⟩ ?_ ?_
      · rw [contacts, cF]; rfl
      · simp [hfo, not_both s1 s3 hx, not_both s2 s4 hy]
  · rw [not_folded hfo] at al
    rcases hx with hx | hx <;> rcases hy with hy | hy
    · obtain ⟨p1, a1, a2⟩ := found_x h hx
      obtain ⟨p2, b1, b2⟩ := found_y h hy
      rw [a1, b1] at al
      refine key _ _ al (.cons a2 (.cons b2 .nil)) (by simp) ⟨true, true, false⟩ ?_ ?_
      · rw [contacts, cX]; simp only; rw [contacts, cY]; rfl
      · simp [hx, hy, hfo]
    · obtain ⟨p1, a1, a2⟩ := found_x h hx
      rw [a1, apart_none hy] at al
      refine key _ _ al (.cons a2 .nil) (by simp) ⟨true, false, false⟩ ?_ ?_
      · rw [contacts, cX]; rfl
      · simp [hx, hfo, not_both s2 s4 hy]
    · obtain ⟨p1, a1, a2⟩ := found_y h hy
      rw [a1, apart_none hx] at al
      refine key _ _ al (.cons a2 .nil) (by simp) ⟨false, true, false⟩ ?_ ?_
      · rw [contacts, cY]; rfl
      · simp [hy, hfo, not_both s1 s3 hx]
    · rw [apart_none hy, apart_none hx] at al
      refine key _ _ al .nil (by simp) ⟨false, false, false⟩ rfl ?_
      simp [hfo, not_both s1 s3 hx, not_both s2 s4 hy]

/-- A grid of one column that is cyclic in y only is read as cyclic in x only. -/
theorem C146_one_column_wrong {t : Tile K} {n : Nat} {mosaic tile : Word} (h : Plain t 1 n mosaic tile) (px py : K) (hx : Apart t .east .west px 0)
    (hy : Joined t .south .north 0 py) (hf : ¬Folded t) : ∃ f, solo mosaic tile t px py = .ok f ∧ boundaryType f = .ok ⟨true, false, false⟩ := by
  obtain ⟨p2, b1, b2⟩ := found_y h hy
  have al := align_self t px py
  rw [not_folded hf, b1, apart_none hx] at al
  obtain ⟨f, hf1, hf2⟩ := through h.len al (.cons b2 .nil) (by simp)
  exact ⟨f, hf1, hf2⟩

/-- A grid of one row that is cyclic in y is read as tripolar. -/
theorem C146_one_row_wrong {t : Tile K} {m : Nat} {mosaic tile : Word} (h : Plain t m 1 mosaic tile) (hm : 2 ≤ m) (px py : K) (hx : Apart t .east .west px 0)
    (hy : Joined t .south .north 0 py) (hf : ¬Folded t) : ∃ f, solo mosaic tile t px py = .ok f ∧ boundaryType f = .ok ⟨false, false, true⟩ := by
  obtain ⟨p2, b1, b2⟩ := found_y h hy
  have al := align_self t px py
  rw [not_folded hf, b1, apart_none hx] at al
  obtain ⟨f, hf1, hf2⟩ := through h.len al (.cons b2 .nil) (by simp)
  refine ⟨f, hf1, hf2.trans ?_⟩
  have c : contact ⟨false, false, false⟩ (ixY m 1) = .ok ⟨false, false, true⟩ := by
    unfold contact ixY
    simp only
    rw [if_neg (by omega), if_pos trivial, if_neg (by simp), if_pos (by simp)]
  rw [contacts, c]
  rfl

/-- A folded grid of two columns is read as cyclic in x, and not as tripolar. -/
theorem C146_two_columns_wrong {t : Tile K} {n : Nat} {mosaic tile : Word} (h : Plain t 2 n mosaic tile) (px py : K) (hx : Apart t .east .west px 0)
    (hy : Apart t .south .north 0 py) (hf : Folded t) : ∃ f, solo mosaic tile t px py = .ok f ∧ boundaryType f = .ok ⟨true, false, false⟩ := by
  obtain ⟨p2, b1, b2⟩ := found_fold (k := 1) h hf
  have al := align_self t px py
  rw [apart_none hy, b1, apart_none hx] at al
  obtain ⟨f, hf1, hf2⟩ := through h.len al (.cons b2 .nil) (by simp)
  exact ⟨f, hf1, hf2⟩

/-- A grid which is cyclic in both directions and folded has three contacts, and is refused. -/
theorem C146_three_refused {t : Tile K} {k n : Nat} {mosaic tile : Word} (h : Plain t (2 * k) n mosaic tile) (px py : K) (hx : Joined t .east .west px 0)
    (hy : Joined t .south .north 0 py) (hf : Folded t) : ∃ f, solo mosaic tile t px py = .ok f ∧ boundaryType f = .error .refused := by
  obtain ⟨p1, a1, a2⟩ := found_x h hx
  obtain ⟨p2, b1, b2⟩ := found_y h hy
  obtain ⟨p3, c1, c2⟩ := found_fold h hf
  have al := align_self t px py
  rw [a1, b1, c1] at al
  unfold solo
  rw [al, rows_ok h.len _ (by
    intro p hp
    simp only [Option.toList_some, List.cons_append, List.nil_append, List.mem_cons, List.not_mem_nil, or_false] at hp
    rcases hp with rfl | rfl | rfl
    · exact ⟨a2.1, a2.2.1⟩
    · exact ⟨b2.1, b2.2.1⟩
    · exact ⟨c2.1, c2.2.1⟩)]
  exact ⟨_, rfl, rfl⟩

/-- A mosaic of one tile from elsewhere, with one or two contacts that can be read, is accepted if and only if each contact joins two columns or two rows of cells. -/
theorem C146_kinds (tile : Word) (l : List (Word × Word)) (xs : List Ix) (hl : 1 ≤ l.length ∧ l.length ≤ 2) (hr : readAll [tile] l = .ok xs) :
    (∃ b, boundaryType ⟨[tile], some l⟩ = .ok b) ↔ ∀ x ∈ xs, (x.is1 = x.ie1 ∧ x.is2 = x.ie2) ∨ (x.is1 ≠ x.ie1 ∧ x.js1 = x.je1 ∧ x.js2 = x.je2) := by
  have e : boundaryType ⟨[tile], some l⟩ = contacts ⟨false, false, false⟩ xs := by
    unfold boundaryType
    rw [if_neg (by simp)]
    simp only
    rw [if_neg (by omega), hr]
  rw [e]
  generalize (⟨false, false, false⟩ : Boundary) = b0
  clear e hr hl
  have one : ∀ (b : Boundary) (x : Ix), ((∃ b', contact b x = .ok b') ↔ (x.is1 = x.ie1 ∧ x.is2 = x.ie2) ∨ (x.is1 ≠ x.ie1 ∧ x.js1 = x.je1 ∧ x.js2 = x.je2)) := by
    intro b x
    unfold contact
    by_cases h1 : x.is1 = x.ie1
    · by_cases h2 : x.is2 = x.ie2
      · simp [h1, h2]
      · simp [h1, h2]
    · by_cases h3 : x.js1 = x.je1
      · by_cases h4 : x.js2 = x.je2
        · rw [if_neg h1, if_pos h3, if_neg (not_not.2 h4)]
          by_cases h5 : x.js1 = x.js2
          · rw [if_pos h5]; exact ⟨fun _ => .inr ⟨h1, h3, h4⟩, fun _ => ⟨_, rfl⟩⟩
          · rw [if_neg h5]; exact ⟨fun _ => .inr ⟨h1, h3, h4⟩, fun _ => ⟨_, rfl⟩⟩
        · rw [if_neg h1, if_pos h3, if_pos h4]; simp [h1, h4]
      · rw [if_neg h1, if_neg h3]; simp [h1, h3]
  induction xs generalizing b0 with
  | nil => simp [contacts]
  | cons x xs ih =>
    rw [contacts, List.forall_mem_cons, ← one b0 x]
    cases h : contact b0 x with
    | error e => simp
    | ok b' => simpa using ih b'

/-- A contact of a column with a row is refused. -/
example : ¬∃ b, boundaryType ⟨["tile1".toList], some [("m:tile1::m:tile1".toList, "2:2,1:8::1:8,1:1".toList)]⟩ = .ok b := by
  have h : readAll ["tile1".toList] [("m:tile1::m:tile1".toList, "2:2,1:8::1:8,1:1".toList)] = .ok [⟨0, 0, 0, 3, 0, 3, 0, 0⟩] := by rfl
  rw [C146_kinds _ _ _ (by decide) h]
  decide

/-- A folded grid of 3 times 2 cells. -/
def bndFold : Tile ℚ := ⟨7, 5, fun i j => (if j = 4 then (if i ≤ 3 then 10 * i else 60 - 10 * i) else 60 * i, 10 * j)⟩

/-- A folded grid with an odd number of columns is refused: the halves of the fold are no whole cells. -/
theorem C146_fold_odd_wrong : Plain bndFold 3 2 "ocean_mosaic".toList "tile1".toList ∧ Folded bndFold ∧
    ∃ f, solo "ocean_mosaic".toList "tile1".toList bndFold 360 0 = .ok f ∧ boundaryType f = .error .refused := by
  refine ⟨⟨rfl, rfl, by decide, by decide, by decide, by decide, by decide, ?_, ?_⟩, (folded_iff _).2 ⟨(⟨1, 3, 4, 4⟩, ⟨6, 4, 4, 4⟩), by decide +kernel⟩, ?_⟩
  · exact ⟨by decide, by decide⟩
  · exact ⟨by decide, by decide⟩
  · have hr : rows "ocean_mosaic".toList "tile1".toList (alignContact true bndFold bndFold 360 0) = .ok
        [("ocean_mosaic:tile1::ocean_mosaic:tile1".toList, "6:6,1:4::1:1,1:4".toList),
         ("ocean_mosaic:tile1::ocean_mosaic:tile1".toList, "1:3,4:4::6:4,4:4".toList)] := by
      rw [show alignContact true bndFold bndFold 360 0 = [(⟨6, 6, 1, 4⟩, ⟨1, 1, 1, 4⟩), (⟨1, 3, 4, 4⟩, ⟨6, 4, 4, 4⟩)] by decide +kernel]
      have d : ∀ n, n < 10 → dec n = [digit n] := fun n hn => by rw [dec, dif_pos hn]
      have h : ∀ p ∈ [((⟨6, 6, 1, 4⟩, ⟨1, 1, 1, 4⟩) : Part × Part), (⟨1, 3, 4, 4⟩, ⟨6, 4, 4, 4⟩)], Small p.1 ∧ Small p.2 := by
        unfold Small
        decide
      rw [rows_ok (by decide) _ h]
      simp only [List.map_cons, List.map_nil, indexString, toIx, printInt, d _ (by decide : (1 : Nat) < 10), d _ (by decide : (3 : Nat) < 10),
        d _ (by decide : (4 : Nat) < 10), d _ (by decide : (6 : Nat) < 10)]
      rfl
    refine ⟨_, by unfold solo; rw [hr], ?_⟩
    rfl

/-- A tripolar grid of 8 times 2 cells. -/
def bndTripolar : Tile ℚ := ⟨17, 5, fun i j => (if j = 4 then (if i ≤ 8 then 10 * i else 160 - 10 * i) else 45 / 2 * i, 10 * j)⟩

/-- It reaches round in x and is folded in the north. -/
example : ∃ f, solo "ocean_mosaic".toList "tile1".toList bndTripolar 360 0 = .ok f ∧ boundaryType f = .ok ⟨true, false, true⟩ := by
  have hj : Joined bndTripolar .east .west 360 0 := by
    have : ∀ i < 5, ∀ j < 5, (SamePlace (360 : ℚ) 0 (bndTripolar.bound .east i) (bndTripolar.bound .west j) ↔ i = j) := by
      unfold SamePlace
      decide +kernel
    exact fun i j hi hj => this i hi j hj
  have ha : Apart bndTripolar .south .north 0 0 := by
    have : ∀ i < 17, ∀ j < 17, ¬SamePlace (0 : ℚ) 0 (bndTripolar.bound .south i) (bndTripolar.bound .north j) := by
      unfold SamePlace
      decide +kernel
    exact fun i j hi hj => this i hi j hj
  have hf : Folded bndTripolar := (folded_iff _).2 ⟨(⟨1, 8, 4, 4⟩, ⟨16, 9, 4, 4⟩), by decide +kernel⟩
  have hp : Plain bndTripolar 8 2 "ocean_mosaic".toList "tile1".toList :=
    ⟨rfl, rfl, by decide, by decide, by decide, by decide, by decide, ⟨by decide, by decide⟩, ⟨by decide, by decide⟩⟩
  have hn := not_both (show 0 < bndTripolar.size .south by decide) (show 0 < bndTripolar.size .north by decide) ha
  obtain ⟨f, b, h1, h2, h3, h4, h5⟩ := C146_boundary_partial hp (by decide) (by decide) 360 0 (.inl hj) (.inr ha) (fun _ => by decide) (fun h => hn h.2.1)
  refine ⟨f, h1, h2.trans ?_⟩
  obtain ⟨x, y, z⟩ := b
  have e1 : x = true := h3.2 hj
  have e2 : y = false := by cases y with | false => rfl | true => exact absurd (h4.1 rfl) hn
  have e3 : z = true := h5.2 hf
  rw [e1, e2, e3]

/-- A strip of one column and two rows with 360 degrees in y. -/
def bndStrip : Tile ℚ := ⟨3, 5, fun i j => (i, 90 * j)⟩

example : ∃ f, solo "ocean_mosaic".toList "tile1".toList bndStrip 0 360 = .ok f ∧ boundaryType f = .ok ⟨true, false, false⟩ := by
  refine C146_one_column_wrong (n := 2) ⟨rfl, rfl, by decide, by decide, by decide, by decide, by decide, ⟨by decide, by decide⟩, ⟨by decide, by decide⟩⟩
    0 360 ?_ ?_ ?_
  · have : ∀ i < 5, ∀ j < 5, ¬SamePlace (0 : ℚ) 0 (bndStrip.bound .east i) (bndStrip.bound .west j) := by
      unfold SamePlace
      decide +kernel
    exact fun i j hi hj => this i hi j hj
  · have : ∀ i < 3, ∀ j < 3, (SamePlace (0 : ℚ) 360 (bndStrip.bound .south i) (bndStrip.bound .north j) ↔ i = j) := by
      unfold SamePlace
      decide +kernel
    exact fun i j hi hj => this i hi j hj
  · intro h
    obtain ⟨p, hp⟩ := (folded_iff _).1 h
    exact absurd hp (by rw [show foldContact bndStrip = none by decide +kernel]; exact fun h => nomatch h)

/-- A strip of two columns and one row with 360 degrees in y. -/
def bndRow : Tile ℚ := ⟨5, 3, fun i j => (i, 180 * j)⟩

example : ∃ f, solo "ocean_mosaic".toList "tile1".toList bndRow 0 360 = .ok f ∧ boundaryType f = .ok ⟨false, false, true⟩ := by
  refine C146_one_row_wrong (m := 2) ⟨rfl, rfl, by decide, by decide, by decide, by decide, by decide, ⟨by decide, by decide⟩, ⟨by decide, by decide⟩⟩
    (by decide) 0 360 ?_ ?_ ?_
  · have : ∀ i < 3, ∀ j < 3, ¬SamePlace (0 : ℚ) 0 (bndRow.bound .east i) (bndRow.bound .west j) := by
      unfold SamePlace
      decide +kernel
    exact fun i j hi hj => this i hi j hj
  · have : ∀ i < 5, ∀ j < 5, (SamePlace (0 : ℚ) 360 (bndRow.bound .south i) (bndRow.bound .north j) ↔ i = j) := by
      unfold SamePlace
      decide +kernel
    exact fun i j hi hj => this i hi j hj
  · intro h
    obtain ⟨p, hp⟩ := (folded_iff _).1 h
    exact absurd hp (by rw [show foldContact bndRow = none by decide +kernel]; exact fun h => nomatch h)

/-- Two columns and two rows, folded in the north. -/
def bndPair : Tile ℚ := ⟨5, 5, fun i j => (if j = 4 then (if i ≤ 2 then 10 * i else 400 - 10 * i) else 60 * i, 10 * j)⟩

example : ∃ f, solo "ocean_mosaic".toList "tile1".toList bndPair 0 0 = .ok f ∧ boundaryType f = .ok ⟨true, false, false⟩ := by
  refine C146_two_columns_wrong (n := 2) ⟨rfl, rfl, by decide, by decide, by decide, by decide, by decide, ⟨by decide, by decide⟩, ⟨by decide, by decide⟩⟩
    0 0 ?_ ?_ ((folded_iff _).2 ⟨(⟨1, 2, 4, 4⟩, ⟨4, 3, 4, 4⟩), by decide +kernel⟩)
  · have : ∀ i < 5, ∀ j < 5, ¬SamePlace (0 : ℚ) 0 (bndPair.bound .east i) (bndPair.bound .west j) := by
      unfold SamePlace
      decide +kernel
    exact fun i j hi hj => this i hi j hj
  · have : ∀ i < 5, ∀ j < 5, ¬SamePlace (0 : ℚ) 0 (bndPair.bound .south i) (bndPair.bound .north j) := by
      unfold SamePlace
      decide +kernel
    exact fun i j hi hj => this i hi j hj

end BoundaryType
end Verif
