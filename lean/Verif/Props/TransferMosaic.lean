import Verif.Lemmas.TransferMosaic
/-
C111 to C114: the files written by `transfer_to_mosaic_grid`.
-/
namespace Verif.TransferMosaic
open Verif.Spec.TransferMosaic Verif.Spec Verif.MosaicContact

variable {F : Type} [Field F]

theorem points_given {α : Type} [Field α] (a b : Option (Fld α × Fld α)) (p : Fld α × Fld α) :
    points a b = some p ↔ Given a b p := by
  unfold points Given
  cases a with
  | some q => simp
  | none => simp

theorem ocean_ok (o : Old F) (g : Grid F) (h : ocean o = .ok g) :
    ∃ pe pn, Given o.e o.geoE pe ∧ Given o.n o.geoN pn ∧
      g.x = wrapColumn (2 * o.nx) 1 (2 * o.ny + 1) (fun v => v - 360) (cells o pe pn).x ∧
      g.y = wrapColumn (2 * o.nx) 1 (2 * o.ny + 1) id (cells o pe pn).y ∧
      g.dx = (cells o pe pn).dx ∧
      g.dy = wrapColumn (2 * o.nx) 0 (2 * o.ny) id (cells o pe pn).dy ∧
      g.ang = wrapColumn (2 * o.nx) 1 (2 * o.ny + 1) id (cells o pe pn).ang := by
  unfold ocean at h
  cases he : points o.e o.geoE with
  | none => simp [he] at h
  | some pe =>
    cases hn : points o.n o.geoN with
    | none => simp [he, hn] at h
    | some pn =>
      simp only [he, hn, Except.ok.injEq] at h
      subst h
      exact ⟨pe, pn, (points_given _ _ _).1 he, (points_given _ _ _).1 hn, rfl, rfl, rfl, rfl, rfl⟩

/-- C111: the program goes on exactly if the file has the points on the east and north sides under one of their two names. -/
theorem C111_accepts (o : Old F) :
    (∃ g, ocean o = .ok g) ↔ (∃ pe, Given o.e o.geoE pe) ∧ (∃ pn, Given o.n o.geoN pn) := by
  constructor
  · rintro ⟨g, h⟩
    obtain ⟨pe, pn, h1, h2, _⟩ := ocean_ok o g h
    exact ⟨⟨pe, h1⟩, ⟨pn, h2⟩⟩
  · rintro ⟨⟨pe, h1⟩, ⟨pn, h2⟩⟩
    unfold ocean
    rw [(points_given _ _ _).2 h1]
    simp only []
    rw [(points_given _ _ _).2 h2]
    exact ⟨_, rfl⟩

/-- C111: the points of the supergrid are the points of the old grid. Each of the centres, the points on the east and north
sides and the corners is at its place, for every size of the grid; angles likewise, zero if the file has none. -/
theorem C111_points (o : Old F) (g : Grid F) (hx : 0 < o.nx) (hy : 0 < o.ny) (h : ocean o = .ok g) :
    ∃ pe pn, Given o.e o.geoE pe ∧ Given o.n o.geoN pn ∧
      Points o.ny o.nx o.xT pe.1 pn.1 o.xC o.xv (fun v => v - 360) (val (2 * o.nx + 1) g.x) ∧
      Points o.ny o.nx o.yT pe.2 pn.2 o.yC o.yv id (val (2 * o.nx + 1) g.y) ∧
      Points o.ny o.nx (o.angT.getD fun _ _ => 0) (o.angE.getD fun _ _ => 0) (o.angN.getD fun _ _ => 0) o.angC
        (fun _ _ _ => 0) id (val (2 * o.nx + 1) g.ang) := by
  obtain ⟨pe, pn, h1, h2, ex, ey, _, _, ea⟩ := ocean_ok o g h
  refine ⟨pe, pn, h1, h2, ?_, ?_, ?_⟩
  · rw [ex]
    exact coord_points (fun g : Grid F => g.x) _ o.ny o.nx hy hx _ _ _ _ _ _ _ (fun j i s r k _ _ _ => rfl)
  · rw [ey]
    exact coord_points (fun g : Grid F => g.y) _ o.ny o.nx hy hx _ _ _ _ _ _ _ (fun j i s r k _ _ _ => rfl)
  · rw [ea]
    exact coord_points (fun g : Grid F => g.ang) _ o.ny o.nx hy hx _ _ _ _ _ _ _
      (fun j i s r k _ hi hk => angCell_eq o j i _ r k hi hk)

/-- Every point of a coordinate array is set. -/
theorem Points_all {ny nx : Nat} {t e n c : Fld F} {v : Nat → Fld F} {west : F → F} {p : Nat → Nat → Option F}
    (h : Points ny nx t e n c v west p) (r k : Nat) (hr : r ≤ 2 * ny) (hk : k ≤ 2 * nx) : (p r k).isSome := by
  by_cases hk0 : k = 0
  · subst hk0
    by_cases hr0 : r = 0
    · subst hr0; rw [h.first]; rfl
    · obtain ⟨u, _, h2⟩ := h.westSide r (by omega) hr
      rw [h2]; rfl
  · obtain ⟨i, hi⟩ : ∃ i, k = 2 * i + 1 ∨ k = 2 * i + 2 := ⟨(k - 1) / 2, by omega⟩
    by_cases hr0 : r = 0
    · subst hr0
      rcases hi with rfl | rfl
      · rw [h.south i (by omega)]; rfl
      · rw [h.southCorner i (by omega)]; rfl
    · obtain ⟨j, hj⟩ : ∃ j, r = 2 * j + 1 ∨ r = 2 * j + 2 := ⟨(r - 1) / 2, by omega⟩
      rcases hj with rfl | rfl <;> rcases hi with rfl | rfl
      · rw [h.centre j i (by omega) (by omega)]; rfl
      · rw [h.east j i (by omega) (by omega)]; rfl
      · rw [h.north j i (by omega) (by omega)]; rfl
      · rw [h.corner j i (by omega) (by omega)]; rfl

/-- Places of `dx`. -/
theorem dx_hit (o : Old F) (pe pn : Fld F × Fld F) (r k j i : Nat) (w : Option F) (hj : j < o.ny) (hi : i < o.nx)
    (hk : k < 2 * o.nx)
    (h1 : ∀ a : Mem F, dxCell o j i a (r * (2 * o.nx) + k) = w)
    (h2 : ∀ j' i' (a : Mem F), j' < o.ny → i' < o.nx → ¬ (j' = j ∧ i' = i) →
        dxCell o j' i' a (r * (2 * o.nx) + k) = a (r * (2 * o.nx) + k)) :
    val (2 * o.nx) (cells o pe pn).dx r k = w :=
  loop2_hit (fun s : Grid F => s.dx (r * (2 * o.nx) + k)) _ o.ny o.nx j i hj hi w (fun s => h1 s.dx)
    (fun j' i' s hj' hi' hne => h2 j' i' s.dx hj' hi' hne) empty

theorem dy_hit (o : Old F) (pe pn : Fld F × Fld F) (r k j i : Nat) (w : Option F) (hj : j < o.ny) (hi : i < o.nx)
    (hk : k < 2 * o.nx + 1)
    (h1 : ∀ a : Mem F, dyCell o j i a (r * (2 * o.nx + 1) + k) = w)
    (h2 : ∀ j' i' (a : Mem F), j' < o.ny → i' < o.nx → ¬ (j' = j ∧ i' = i) →
        dyCell o j' i' a (r * (2 * o.nx + 1) + k) = a (r * (2 * o.nx + 1) + k)) :
    (cells o pe pn).dy (r * (2 * o.nx + 1) + k) = w :=
  loop2_hit (fun s : Grid F => s.dy (r * (2 * o.nx + 1) + k)) _ o.ny o.nx j i hj hi w (fun s => h1 s.dy)
    (fun j' i' s hj' hi' hne => h2 j' i' s.dy hj' hi' hne) empty

theorem dy_inner (o : Old F) (g : Grid F) (h : ocean o = .ok g) (r k : Nat) (h0 : 0 < k) (hk : k ≤ 2 * o.nx) :
    ∃ pe pn, val (2 * o.nx + 1) g.dy r k = (cells o pe pn).dy (r * (2 * o.nx + 1) + k) := by
  obtain ⟨pe, pn, _, _, _, _, _, ed, _⟩ := ocean_ok o g h
  refine ⟨pe, pn, ?_⟩
  show g.dy (r * (2 * o.nx + 1) + k) = _
  rw [ed]
  exact wrap_other _ _ _ _ _ _ _ hk h0

theorem dy_east (o : Old F) (g : Grid F) (h : ocean o = .ok g) (j i : Nat) (hj : j < o.ny) (hi : i < o.nx) :
    val (2 * o.nx + 1) g.dy (2 * j) (2 * i + 2) = eastLow o j i ∧
    val (2 * o.nx + 1) g.dy (2 * j + 1) (2 * i + 2) = eastHigh o j i := by
  constructor
  · obtain ⟨pe, pn, e⟩ := dy_inner o g h (2 * j) (2 * i + 2) (by omega) (by omega)
    rw [e]
    refine dy_hit o pe pn _ _ j i _ hj hi (by omega) (fun a => ?_) (fun j' i' a hj' hi' hne => ?_)
    · rw [dyCell_at o j i a _ _ hi (by omega), if_neg (by omega), if_pos ⟨rfl, rfl⟩]
    · rw [dyCell_at o j' i' a _ _ hi' (by omega), if_neg (by omega), if_neg (by omega), if_neg (by omega), if_neg (by omega)]
  · obtain ⟨pe, pn, e⟩ := dy_inner o g h (2 * j + 1) (2 * i + 2) (by omega) (by omega)
    rw [e]
    refine dy_hit o pe pn _ _ j i _ hj hi (by omega) (fun a => ?_) (fun j' i' a hj' hi' hne => ?_)
    · rw [dyCell_at o j i a _ _ hi (by omega), if_pos ⟨rfl, rfl⟩]
    · rw [dyCell_at o j' i' a _ _ hi' (by omega), if_neg (by omega), if_neg (by omega), if_neg (by omega), if_neg (by omega)]

/-- C111: the lengths of the sides of the supergrid cells are those of the old file, each at its place. -/
theorem C111_lengths (o : Old F) (g : Grid F) (hx : 0 < o.nx) (hy : 0 < o.ny) (h : ocean o = .ok g) :
    Lengths o (val (2 * o.nx) g.dx) (val (2 * o.nx + 1) g.dy) := by
  obtain ⟨pe, pn, _, _, _, _, ex, ey, _⟩ := ocean_ok o g h
  rw [ex]
  refine ⟨fun j i hj hi => ?_, fun j i hj hi => ?_, fun j i hj hi => ?_, fun j i hj hi => ?_, fun j hj => ?_,
    fun i d hi hd => ?_, fun i d hi hd => ?_, fun i hi => ⟨fun hd => ?_, fun hd => ?_⟩, fun j i hj hi => ?_, fun j i hj hi => ?_,
    fun j i d hj hi hd => ?_, fun j i d hj hi hd => ?_, fun r hr => ?_⟩
  · refine dx_hit o pe pn _ _ j i _ hj hi (by omega) (fun a => ?_) (fun j' i' a hj' hi' hne => ?_)
    · rw [dxCell_at o j i a _ _ hi (by omega), if_neg (by omega), if_neg (by omega), if_neg (by omega), if_neg (by omega),
        if_neg (by omega), if_neg (by omega), if_pos ⟨rfl, rfl⟩]
    · rw [dxCell_at o j' i' a _ _ hi' (by omega), if_neg (by omega), if_neg (by omega), if_neg (by omega), if_neg (by omega),
        if_neg (by omega), if_neg (by omega), if_neg (by omega)]
  · refine dx_hit o pe pn _ _ j i _ hj hi (by omega) (fun a => ?_) (fun j' i' a hj' hi' hne => ?_)
    · rw [dxCell_at o j i a _ _ hi (by omega), if_neg (by omega), if_neg (by omega), if_neg (by omega), if_neg (by omega),
        if_neg (by omega), if_pos ⟨rfl, rfl⟩]
    · rw [dxCell_at o j' i' a _ _ hi' (by omega), if_neg (by omega), if_neg (by omega), if_neg (by omega), if_neg (by omega),
        if_neg (by omega), if_neg (by omega), if_neg (by omega)]
  · refine dx_hit o pe pn _ _ j i _ hj hi (by omega) (fun a => ?_) (fun j' i' a hj' hi' hne => ?_)
    · rw [dxCell_at o j i a _ _ hi (by omega), if_neg (by omega), if_neg (by omega), if_neg (by omega), if_pos ⟨rfl, rfl⟩]
    · rw [dxCell_at o j' i' a _ _ hi' (by omega), if_neg (by omega), if_neg (by omega), if_neg (by omega), if_neg (by omega),
        if_neg (by omega), if_neg (by omega), if_neg (by omega)]
  · refine dx_hit o pe pn _ _ j (i + 1) _ hj hi (by omega) (fun a => ?_) (fun j' i' a hj' hi' hne => ?_)
    · rw [dxCell_at o j (i + 1) a _ _ hi (by omega), if_neg (by omega), if_neg (by omega), if_neg (by omega),
        if_neg (by omega), if_pos ⟨by omega, rfl, by omega⟩]
      rfl
    · rw [dxCell_at o j' i' a _ _ hi' (by omega), if_neg (by omega), if_neg (by omega), if_neg (by omega), if_neg (by omega),
        if_neg (by omega), if_neg (by omega), if_neg (by omega)]
  · refine dx_hit o pe pn _ _ j 0 _ hj hx (by omega) (fun a => ?_) (fun j' i' a hj' hi' hne => ?_)
    · rw [dxCell_at o j 0 a _ _ hx (by omega), if_pos ⟨rfl, rfl, rfl⟩]
    · rw [dxCell_at o j' i' a _ _ hi' (by omega), if_neg (by omega), if_neg (by omega), if_neg (by omega), if_neg (by omega),
        if_neg (by omega), if_neg (by omega), if_neg (by omega)]
  · refine dx_hit o pe pn _ _ 0 i _ hy hi (by omega) (fun a => ?_) (fun j' i' a hj' hi' hne => ?_)
    · rw [dxCell_at o 0 i a _ _ hi (by omega), if_neg (by omega), if_neg (by omega), if_pos ⟨rfl, rfl, rfl⟩, orUnknown, hd]
      rfl
    · rw [dxCell_at o j' i' a _ _ hi' (by omega), if_neg (by omega), if_neg (by omega), if_neg (by omega), if_neg (by omega),
        if_neg (by omega), if_neg (by omega), if_neg (by omega)]
  · refine dx_hit o pe pn _ _ 0 i _ hy hi (by omega) (fun a => ?_) (fun j' i' a hj' hi' hne => ?_)
    · rw [dxCell_at o 0 i a _ _ hi (by omega), if_neg (by omega), if_pos ⟨rfl, rfl, rfl⟩, orUnknown, hd]
      rfl
    · rw [dxCell_at o j' i' a _ _ hi' (by omega), if_neg (by omega), if_neg (by omega), if_neg (by omega), if_neg (by omega),
        if_neg (by omega), if_neg (by omega), if_neg (by omega)]
  · refine dx_hit o pe pn _ _ 0 i _ hy hi (by omega) (fun a => ?_) (fun j' i' a hj' hi' hne => ?_)
    · rw [dxCell_at o 0 i a _ _ hi (by omega), if_neg (by omega), if_neg (by omega), if_pos ⟨rfl, rfl, rfl⟩, orUnknown, hd]
      rfl
    · rw [dxCell_at o j' i' a _ _ hi' (by omega), if_neg (by omega), if_neg (by omega), if_neg (by omega), if_neg (by omega),
        if_neg (by omega), if_neg (by omega), if_neg (by omega)]
  · refine dx_hit o pe pn _ _ 0 i _ hy hi (by omega) (fun a => ?_) (fun j' i' a hj' hi' hne => ?_)
    · rw [dxCell_at o 0 i a _ _ hi (by omega), if_neg (by omega), if_pos ⟨rfl, rfl, rfl⟩, orUnknown, hd]
      rfl
    · rw [dxCell_at o j' i' a _ _ hi' (by omega), if_neg (by omega), if_neg (by omega), if_neg (by omega), if_neg (by omega),
        if_neg (by omega), if_neg (by omega), if_neg (by omega)]
  · obtain ⟨pe, pn, e⟩ := dy_inner o g h (2 * j) (2 * i + 1) (by omega) (by omega)
    rw [e]
    refine dy_hit o pe pn _ _ j i _ hj hi (by omega) (fun a => ?_) (fun j' i' a hj' hi' hne => ?_)
    · rw [dyCell_at o j i a _ _ hi (by omega), if_neg (by omega), if_neg (by omega), if_neg (by omega), if_pos ⟨rfl, rfl⟩]
    · rw [dyCell_at o j' i' a _ _ hi' (by omega), if_neg (by omega), if_neg (by omega), if_neg (by omega), if_neg (by omega)]
  · obtain ⟨pe, pn, e⟩ := dy_inner o g h (2 * j + 1) (2 * i + 1) (by omega) (by omega)
    rw [e]
    refine dy_hit o pe pn _ _ j i _ hj hi (by omega) (fun a => ?_) (fun j' i' a hj' hi' hne => ?_)
    · rw [dyCell_at o j i a _ _ hi (by omega), if_neg (by omega), if_neg (by omega), if_pos ⟨rfl, rfl⟩]
    · rw [dyCell_at o j' i' a _ _ hi' (by omega), if_neg (by omega), if_neg (by omega), if_neg (by omega), if_neg (by omega)]
  · rw [(dy_east o g h j i hj hi).1, eastLow, hd]
  · rw [(dy_east o g h j i hj hi).2, eastHigh, hd]
  · show g.dy (r * (2 * o.nx + 1) + 0) = g.dy (r * (2 * o.nx + 1) + 2 * o.nx)
    rw [Nat.add_zero, ey, wrap_hit _ _ _ (by omega) _ _ _ (Nat.zero_le _) hr, wrap_other _ _ _ _ _ _ _ (le_refl _) (by omega)]
    simp

/-- C111: the two halves of a side add up to the side of the cell in the old file: north sides, and, if the file does not give
the halves of the east sides, east sides. -/
theorem C111_sides (o : Old F) (g : Grid F) (hx : 0 < o.nx) (hy : 0 < o.ny) (h : ocean o = .ok g) (hf : Halves o) (j i : Nat)
    (hj : j < o.ny) (hi : i < o.nx) :
    (∃ a b, val (2 * o.nx) g.dx (2 * j + 2) (2 * i) = some a ∧ val (2 * o.nx) g.dx (2 * j + 2) (2 * i + 1) = some b ∧
      a + b = o.ds_02_22_T j i) ∧
    (o.ds_20_21_T = none → o.ds_21_22_T = none →
      ∃ a b, val (2 * o.nx + 1) g.dy (2 * j) (2 * i + 2) = some a ∧ val (2 * o.nx + 1) g.dy (2 * j + 1) (2 * i + 2) = some b ∧
        a + b = o.ds_20_22_T j i) := by
  have L := C111_lengths o g hx hy h
  constructor
  · by_cases h0 : i = 0
    · subst h0
      exact ⟨_, _, L.northFirst j hj, L.northEast j 0 hj hi, by ring⟩
    · obtain ⟨m, rfl⟩ : ∃ m, i = m + 1 := ⟨i - 1, by omega⟩
      exact ⟨_, _, L.northWest j m hj hi, L.northEast j (m + 1) hj hi, hf.north j m hj hi⟩
  · intro h1 h2
    obtain ⟨e1, e2⟩ := dy_east o g h j i hj hi
    rw [e1, e2]
    unfold eastLow eastHigh readC10 readC11
    rw [h1, h2]
    by_cases h0 : j = 0
    · subst h0
      exact ⟨_, _, rfl, rfl, by ring⟩
    · obtain ⟨m, rfl⟩ : ∃ m, j = m + 1 := ⟨j - 1, by omega⟩
      refine ⟨o.ds_11_12_C m i, o.ds_10_11_C (m + 1) i, ?_, rfl, hf.east m i hj hi⟩
      simp

/-- C111: if the cells of the old file fit together and the grid goes once around the globe, the corners of every cell in the
supergrid are its vertices in the old file. -/
theorem C111_corners (o : Old F) (g : Grid F) (hx : 0 < o.nx) (hy : 0 < o.ny) (h : ocean o = .ok g)
    (jx : Joined o.ny o.nx o.xC o.xv) (ax : Around o.ny o.nx o.xC o.xv (fun v => v - 360))
    (jy : Joined o.ny o.nx o.yC o.yv) (ay : Around o.ny o.nx o.yC o.yv id) (j i : Nat) (hj : j < o.ny) (hi : i < o.nx) :
    Corners o.xv (val (2 * o.nx + 1) g.x) j i ∧ Corners o.yv (val (2 * o.nx + 1) g.y) j i := by
  obtain ⟨pe, pn, _, _, px, py, _⟩ := C111_points o g hx hy h
  exact ⟨corners_of px jx ax hj hi, corners_of py jy ay hj hi⟩

/-- C111, the assumption of one turn is needed: where the west side of the old grid is not its east side minus 360, the
corner in the supergrid is not the vertex of the cell. -/
theorem C111_around_partial (o : Old F) (g : Grid F) (hx : 0 < o.nx) (hy : 0 < o.ny) (h : ocean o = .ok g) (j : Nat)
    (hj : j < o.ny) : val (2 * o.nx + 1) g.x (2 * j + 2) 0 = some (o.xv 3 j 0) ↔ o.xv 3 j 0 = o.xC j (o.nx - 1) - 360 := by
  obtain ⟨pe, pn, _, _, px, _⟩ := C111_points o g hx hy h
  obtain ⟨u, h1, h2⟩ := px.westSide (2 * j + 2) (by omega) (by omega)
  have h3 := px.corner j (o.nx - 1) hj (by omega)
  rw [show 2 * (o.nx - 1) + 2 = 2 * o.nx by omega, h1, Option.some.injEq] at h3
  rw [h2, h3, Option.some.injEq]
  exact eq_comm

/-- C111: every value of the ocean supergrid is written, unless the file has the upper but not the lower halves of the east
sides. -/
theorem C111_written_partial (o : Old F) (g : Grid F) (hx : 0 < o.nx) (hy : 0 < o.ny) (h : ocean o = .ok g)
    (hs : o.ds_20_21_T.isSome ∨ o.ds_21_22_T = none) (r k : Nat) :
    (r ≤ 2 * o.ny → k ≤ 2 * o.nx → (val (2 * o.nx + 1) g.x r k).isSome ∧ (val (2 * o.nx + 1) g.y r k).isSome ∧
      (val (2 * o.nx + 1) g.ang r k).isSome) ∧
    (r ≤ 2 * o.ny → k < 2 * o.nx → (val (2 * o.nx) g.dx r k).isSome) ∧
    (r < 2 * o.ny → k ≤ 2 * o.nx → (val (2 * o.nx + 1) g.dy r k).isSome) := by
  obtain ⟨pe, pn, _, _, px, py, pa⟩ := C111_points o g hx hy h
  have L := C111_lengths o g hx hy h
  have inner : ∀ r k, 0 < k → r < 2 * o.ny → k ≤ 2 * o.nx → (val (2 * o.nx + 1) g.dy r k).isSome := by
    intro r k hk0 hr hk
    obtain ⟨i, hi⟩ : ∃ i, k = 2 * i + 1 ∨ k = 2 * i + 2 := ⟨(k - 1) / 2, by omega⟩
    obtain ⟨j, hj⟩ : ∃ j, r = 2 * j ∨ r = 2 * j + 1 := ⟨r / 2, by omega⟩
    have hlow : (eastLow o j i).isSome := by
      unfold eastLow readC10 readC11
      rcases hs with hs | hs
      · obtain ⟨d, hd⟩ := Option.isSome_iff_exists.1 hs
        rw [hd]; rfl
      · rw [hs]
        cases o.ds_20_21_T with
        | some d => rfl
        | none => by_cases h0 : j = 0 <;> simp [h0]
    have hhigh : (eastHigh o j i).isSome := by
      unfold eastHigh readC10
      cases o.ds_21_22_T with
      | some d => rfl
      | none => rfl
    rcases hj with rfl | rfl <;> rcases hi with rfl | rfl
    · rw [L.midSouth j i (by omega) (by omega)]; rfl
    · rw [(dy_east o g h j i (by omega) (by omega)).1]; exact hlow
    · rw [L.midNorth j i (by omega) (by omega)]; rfl
    · rw [(dy_east o g h j i (by omega) (by omega)).2]; exact hhigh
  refine ⟨fun hr hk => ⟨Points_all px r k hr hk, Points_all py r k hr hk, Points_all pa r k hr hk⟩, fun hr hk => ?_,
    fun hr hk => ?_⟩
  · obtain ⟨i, hi⟩ : ∃ i, k = 2 * i ∨ k = 2 * i + 1 := ⟨k / 2, by omega⟩
    by_cases hr0 : r = 0
    · subst hr0
      rcases hi with rfl | rfl
      · cases hd : o.ds_00_10_T with
        | none => rw [(L.southNone i (by omega)).1 hd]; rfl
        | some d => rw [L.southWest i d (by omega) hd]; rfl
      · cases hd : o.ds_10_20_T with
        | none => rw [(L.southNone i (by omega)).2 hd]; rfl
        | some d => rw [L.southEast i d (by omega) hd]; rfl
    · obtain ⟨j, hj⟩ : ∃ j, r = 2 * j + 1 ∨ r = 2 * j + 2 := ⟨(r - 1) / 2, by omega⟩
      rcases hj with rfl | rfl <;> rcases hi with rfl | rfl
      · rw [L.midWest j i (by omega) (by omega)]; rfl
      · rw [L.midEast j i (by omega) (by omega)]; rfl
      · by_cases h0 : i = 0
        · subst h0; rw [L.northFirst j (by omega)]; rfl
        · obtain ⟨m, rfl⟩ : ∃ m, i = m + 1 := ⟨i - 1, by omega⟩
          rw [show 2 * (m + 1) = 2 * m + 2 by ring, L.northWest j m (by omega) (by omega)]; rfl
      · rw [L.northEast j i (by omega) (by omega)]; rfl
  · by_cases hk0 : k = 0
    · subst hk0
      rw [L.westSide r hr]
      exact inner r _ (by omega) hr (le_refl _)
    · exact inner r k (by omega) hr hk

/-- C111, what goes wrong: with the upper halves of the east sides (`ds_21_22_T`) in the file but not the lower ones, the
program computes the lower halves in the first row from `ds_10_11_C`, which it has not read. What it writes is whatever was in
the memory. -/
theorem C111_unread_wrong (o : Old F) (g : Grid F) (h : ocean o = .ok g) (hy : 0 < o.ny) (h1 : o.ds_20_21_T = none)
    (h2 : o.ds_21_22_T.isSome) (i : Nat) (hi : i < o.nx) : val (2 * o.nx + 1) g.dy 0 (2 * i + 2) = none := by
  have := (dy_east o g h 0 i hy hi).1
  rw [Nat.mul_zero] at this
  rw [this]
  obtain ⟨d, hd⟩ := Option.isSome_iff_exists.1 h2
  unfold eastLow readC10
  rw [h1, hd]
  rfl

end Verif.TransferMosaic
