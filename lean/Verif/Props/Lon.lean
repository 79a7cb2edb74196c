import Verif.Lemmas.Lon
import Mathlib.Tactic.FinCases
/-
C32: adjustment of longitudes. `pi` is half a turn in the unit of the longitudes.
-/
namespace Verif.Lon
open Verif.Clip (Pt pimod1)
open Verif.Spec

variable {K : Type} [Field K] [LinearOrder K] [IsStrictOrderedRing K]

/-! ### pimod -/

/-- C32. `pimod` keeps the meridian, and brings longitudes from three half turns on either side into one turn. -/
theorem C32_pimod (pi x : K) : SameMeridian pi x (pimod1 pi x) ∧
    (|x| ≤ 3 * pi → |pimod1 pi x| ≤ pi) := by
  refine ⟨pimod1_same pi x, fun h => ?_⟩
  rw [abs_le] at h ⊢
  exact pimod1_range (by linarith) h.2

/-- C32. Outside that range `pimod` does not reach its range: it adds or subtracts one turn only. -/
theorem C32_pimod_once (pi x : K) (hpi : 0 < pi) (h : 3 * pi < |x|) : pi < |pimod1 pi x| := by
  unfold pimod1
  rcases lt_abs.1 h with h | h
  · rw [if_neg (by linarith), if_pos (by linarith), lt_abs]; left; linarith
  · rw [if_pos (by linarith), lt_abs]; right; linarith

example : |(7 : ℚ)| ≤ 3 * 3 ∧ pimod1 (3 : ℚ) 7 = 1 := by
  refine ⟨by norm_num, by norm_num [pimod1]⟩

/-! ### fix_lon -/

/-- C32. Away from the poles `fix_lon` keeps all vertices and latitudes and changes longitudes by whole turns. -/
theorem C32_fix_turns (pi tol small tlon : K) (l : List (Pt K)) (h1 : AwayFromPoles pi tol l)
    (h2 : NoSideOverPole pi small l) : SameUpToTurns pi l (fixLon pi tol small tlon l) := by
  rw [fixLon_plain h1 h2]
  exact sameUpToTurns_trans (unwrapAll_same pi l) (recentre_same pi tlon _)

omit [LinearOrder K] [IsStrictOrderedRing K] in
theorem int_cases (z : Int) (h1 : -2 < z) (h2 : z < 2) : z = 0 ∨ z = 1 ∨ z = -1 := by omega

/-- C32. Take a cell away from the poles whose longitudes are given in one turn, but which may lie across the end of
that turn, and which is less than half a turn wide. After `fix_lon` it is in one piece: any two of its longitudes
differ by less than half a turn, and its mean longitude is within half a turn of `tlon`. -/
theorem C32_fix_cell (pi tol small tlon a w : K) (hpi : 0 < pi) (l : List (Pt K)) (hl : l ≠ [])
    (h1 : AwayFromPoles pi tol l) (h2 : NoSideOverPole pi small l) (ha : ∀ p ∈ l, a ≤ p.1 ∧ p.1 ≤ a + 2 * pi)
    (hw : LessThanHalfTurn pi w l) (ht : a ≤ tlon ∧ tlon ≤ a + 2 * pi) :
    (∀ p ∈ fixLon pi tol small tlon l, ∀ q ∈ fixLon pi tol small tlon l, |p.1 - q.1| < pi) ∧
    |meanLon (fixLon pi tol small tlon l) - tlon| ≤ pi := by
  rw [fixLon_plain h1 h2]
  obtain ⟨p0, ps, rfl⟩ : ∃ p ps, l = p :: ps := by
    cases l with
    | nil => exact absurd rfl hl
    | cons p ps => exact ⟨p, ps, rfl⟩
  obtain ⟨u0, ⟨z0, hu0⟩, hu0a, hu0b⟩ := hw p0 List.mem_cons_self
  have ha0 := ha p0 List.mem_cons_self
  -- the lift of every vertex near the first
  have lift : ∀ p ∈ p0 :: ps, ∃ t, Near pi p t ∧ w - u0 + p0.1 ≤ t ∧ t < w - u0 + p0.1 + pi := by
    intro p hp
    obtain ⟨u, ⟨z, hu⟩, h3, h4⟩ := hw p hp
    have hap := ha p hp
    refine ⟨u - u0 + p0.1, ?_, by linarith, by linarith⟩
    have e : u - u0 + p0.1 = p.1 + ((z - z0 : Int) : K) * (2 * pi) := by
      rw [hu, hu0]; push_cast; ring
    have hz1 : ((z - z0 : Int) : K) < 2 := by
      have : ((z - z0 : Int) : K) * (2 * pi) < 2 * (2 * pi) := by linarith
      exact lt_of_mul_lt_mul_right this (by linarith)
    have hz2 : (-2 : K) < ((z - z0 : Int) : K) := by
      have : (-2 : K) * (2 * pi) < ((z - z0 : Int) : K) * (2 * pi) := by linarith
      exact lt_of_mul_lt_mul_right this (by linarith)
    have hz1' : z - z0 < 2 := by exact_mod_cast hz1
    have hz2' : -2 < z - z0 := by exact_mod_cast hz2
    rw [e]
    rcases int_cases (z - z0) hz2' hz1' with h | h | h <;> rw [h]
    · left; simp
    · right; left; simp
    · right; right; push_cast; ring
  have lifts : ∀ m : List (Pt K), (∀ p ∈ m, p ∈ p0 :: ps) → ∃ t : List K, List.Forall₂ (Near pi) m t ∧
      ∀ x ∈ t, w - u0 + p0.1 ≤ x ∧ x < w - u0 + p0.1 + pi := by
    intro m
    induction m with
    | nil => intro _; exact ⟨[], List.Forall₂.nil, by simp⟩
    | cons p m ih =>
      intro hm
      obtain ⟨t, ht1, ht2⟩ := ih fun q hq => hm q (List.mem_cons_of_mem _ hq)
      obtain ⟨x, hx1, hx2, hx3⟩ := lift p (hm p List.mem_cons_self)
      exact ⟨x :: t, List.Forall₂.cons hx1 ht1, by
        intro y hy
        rcases List.mem_cons.1 hy with rfl | hy
        · exact ⟨hx2, hx3⟩
        · exact ht2 y hy⟩
  obtain ⟨t, ht1, ht2⟩ := lifts ps fun p hp => List.mem_cons_of_mem _ hp
  have hb : ∀ x ∈ p0.1 :: t, w - u0 + p0.1 ≤ x ∧ x < w - u0 + p0.1 + pi := by
    intro x hx
    rcases List.mem_cons.1 hx with rfl | hx
    · constructor <;> linarith
    · exact ht2 x hx
  have hun := unwrap_lift ps t p0.1 ht1 (by
    intro x hx y hy
    have := hb x hx
    have := hb y hy
    rw [abs_lt]; constructor <;> linarith)
  have hmem : ∀ p ∈ unwrapAll pi (p0 :: ps), w - u0 + p0.1 ≤ p.1 ∧ p.1 < w - u0 + p0.1 + pi := by
    intro p hp
    apply hb
    rw [unwrapAll] at hp
    rcases List.mem_cons.1 hp with rfl | hp
    · simp
    · rw [← hun]; exact List.mem_cons_of_mem _ (List.mem_map_of_mem hp)
  refine ⟨recentre_diff fun p hp q hq => ?_, recentre_mean (by simp [unwrapAll]) ?_⟩
  · have := hmem p hp
    have := hmem q hq
    rw [abs_lt]; constructor <;> linarith
  · have := meanLon_bounds (l := unwrapAll pi (p0 :: ps)) (by simp [unwrapAll])
      (a := w - u0 + p0.1) (b := w - u0 + p0.1 + pi) fun p hp => ⟨(hmem p hp).1, (hmem p hp).2.le⟩
    rw [abs_le]; constructor <;> linarith

/-- A cell across the zero meridian (half a turn is 180): it becomes a cell around 360. -/
example : fixLon (180 : ℚ) (1 / 10) (1 / 100) 180 [(350, 10), (10, 10), (10, 20), (350, 20)] =
      [(350, 10), (370, 10), (370, 20), (350, 20)] ∧
    AwayFromPoles (180 : ℚ) (1 / 10) [(350, 10), (10, 10), (10, 20), (350, 20)] ∧
    LessThanHalfTurn (180 : ℚ) 340 [(350, 10), (10, 10), (10, 20), (350, 20)] := by
  refine ⟨?_, ?_, ?_⟩
  · rw [fixLon_plain]
    · norm_num [recentre, unwrapAll, unwrap, pimod1]
    · intro p hp; fin_cases hp <;> norm_num [abs_lt]
    · intro i p q h1 h2
      match i with
      | 0 => simp at h1 h2; subst h1 h2; norm_num
      | 1 => simp at h1 h2; subst h1 h2; norm_num
      | 2 => simp at h1 h2; subst h1 h2; norm_num
      | 3 => simp at h1 h2; subst h1 h2; norm_num
      | i + 4 => simp at h1
  · intro p hp; fin_cases hp <;> norm_num [abs_lt]
  · intro p hp
    fin_cases hp
    · exact ⟨350, ⟨0, by norm_num⟩, by norm_num, by norm_num⟩
    · exact ⟨370, ⟨1, by norm_num⟩, by norm_num, by norm_num⟩
    · exact ⟨370, ⟨1, by norm_num⟩, by norm_num, by norm_num⟩
    · exact ⟨350, ⟨0, by norm_num⟩, by norm_num, by norm_num⟩

/-- C32. `fix_lon` ends for every polygon, and its result has at most twice the vertices plus two: the arrays of the
callers (50 vertices) suffice for all cells with four corners. -/
theorem C32_fix_size (pi tol small tlon : K) (l : List (Pt K)) :
    (fixLon pi tol small tlon l).length ≤ 2 * l.length + 2 := by
  have h1 := pairPoles_length pi tol l 0
  have h2 := poleLons_length pi tol (pairPoles pi tol l 0)
  have h3 := twins_length pi small (poleLons pi tol (pairPoles pi tol l 0))
  have h4 := forall₂_length (unwrapAll_same pi (twins pi small (poleLons pi tol (pairPoles pi tol l 0))))
  have h5 := forall₂_length (recentre_same pi tlon
    (unwrapAll pi (twins pi small (poleLons pi tol (pairPoles pi tol l 0)))))
  rw [fixLon, ← h5, ← h4]
  omega

/-! ### A pole -/

theorem pole_ne {pi tol : K} {p q : Pt K} (hp : isPole pi tol p = true) (hq : |q.2| < pi / 2 - tol) : q.2 ≠ p.2 := by
  intro e
  simp only [isPole, decide_eq_true_eq, ge_iff_le] at hp
  rw [e] at hq
  linarith

theorem pairPoles_skip {pi tol : K} {l : List (Pt K)} {i : Nat} (hi : i < l.length)
    (h : isPole pi tol l[i] = false) : pairPoles pi tol l i = pairPoles pi tol l (i + 1) := by
  rw [pairPoles, dif_pos hi]
  simp [h]

theorem pairPoles_rest {pi tol : K} {l : List (Pt K)} (i : Nat)
    (h : ∀ k (hk : k < l.length), i ≤ k → isPole pi tol l[k] = false) : pairPoles pi tol l i = l := by
  induction hn : l.length - i generalizing i with
  | zero => rw [pairPoles, dif_neg (by omega)]
  | succ n ih =>
    rw [pairPoles_skip (by omega) (h i (by omega) (le_refl i))]
    exact ih (i + 1) (fun k hk hik => h k hk (by omega)) (by omega)

theorem pairPoles_upto {pi tol : K} {l : List (Pt K)} (n i : Nat) (hl : i + n ≤ l.length)
    (h : ∀ k (hk : k < l.length), i ≤ k → k < i + n → isPole pi tol l[k] = false) :
    pairPoles pi tol l i = pairPoles pi tol l (i + n) := by
  induction n generalizing i with
  | zero => rfl
  | succ n ih =>
    rw [pairPoles_skip (by omega) (h i (by omega) (le_refl i) (by omega)),
      ih (i + 1) (by omega) (fun k hk h1 h2 => h k hk (by omega) (by omega))]
    congr 1; omega

theorem notPole {pi tol : K} {q : Pt K} (hq : |q.2| < pi / 2 - tol) : isPole pi tol q = false := by
  simp only [isPole, decide_eq_false_iff_not, not_le, ge_iff_le]; exact hq

/-- `(i + n - 1) % n` and `(i + 1) % n`. -/
theorem prev_mod {i n : Nat} (h : i < n) : (i + n - 1) % n = if i = 0 then n - 1 else i - 1 := by
  split
  · rename_i h0; subst h0; rw [Nat.zero_add]; exact Nat.mod_eq_of_lt (by omega)
  · rw [show i + n - 1 = (i - 1) + n by omega, Nat.add_mod_right, Nat.mod_eq_of_lt (by omega)]

theorem next_mod {i n : Nat} (h : i < n) : (i + 1) % n = if i + 1 = n then 0 else i + 1 := by
  split
  · rename_i h0; rw [h0, Nat.mod_self]
  · exact Nat.mod_eq_of_lt (by omega)

omit [LinearOrder K] [Field K] [IsStrictOrderedRing K] in
theorem prev_get {α : Type} (u m v : List α) (hm : m ≠ []) (h : v ++ u ≠ []) :
    (u ++ m ++ v)[(u.length + (u ++ m ++ v).length - 1) % (u ++ m ++ v).length]? = some ((v ++ u).getLast h) := by
  have hml : 0 < m.length := List.length_pos_of_ne_nil hm
  have hl : (u ++ m ++ v).length = u.length + m.length + v.length := by simp; omega
  rw [prev_mod (by omega)]
  by_cases hu : u = []
  · subst hu
    have hv : v ≠ [] := by simpa using h
    have hvl : 0 < v.length := List.length_pos_of_ne_nil hv
    simp only [List.length_nil, if_true, List.nil_append, List.append_nil]
    rw [List.getElem?_append_right (by simp; omega), List.getLast_eq_getElem, List.getElem?_eq_getElem (by simp; omega)]
    congr 2; simp; omega
  · have hul : 0 < u.length := List.length_pos_of_ne_nil hu
    rw [if_neg (by omega), List.append_assoc, List.getElem?_append_left (by omega),
      List.getElem?_eq_getElem (by omega)]
    congr 1
    rw [List.getLast_append_of_right_ne_nil v u hu, List.getLast_eq_getElem]

omit [LinearOrder K] [Field K] [IsStrictOrderedRing K] in
theorem next_get {α : Type} (u m v : List α) (i : Nat) (hm : i + 1 = u.length + m.length) (h : v ++ u ≠ []) :
    (u ++ m ++ v)[(i + 1) % (u ++ m ++ v).length]? = some ((v ++ u).head h) := by
  have hl : (u ++ m ++ v).length = u.length + m.length + v.length := by simp; omega
  rw [next_mod (by omega)]
  by_cases hv : v = []
  · subst hv
    have hu : u ≠ [] := by simpa using h
    rw [if_pos (by simp; omega)]
    cases u with
    | nil => exact absurd rfl hu
    | cons a u => simp
  · have hvl : 0 < v.length := List.length_pos_of_ne_nil hv
    rw [if_neg (by omega), List.getElem?_append_right (by simp; omega)]
    cases v with
    | nil => exact absurd rfl hv
    | cons a v => simp [show i + 1 - (u.length + m.length) = 0 by omega]

theorem fold_skip {pi tol : K} (l : List (Pt K)) (r : List Nat)
    (h : ∀ i ∈ r, ∀ p, l[i]? = some p → isPole pi tol p = false) : r.foldl (poleLon pi tol) l = l := by
  induction r with
  | nil => rfl
  | cons i r ih =>
    have : poleLon pi tol l i = l := by
      unfold poleLon
      cases e : l[i]? with
      | none => rfl
      | some p => simp [h i List.mem_cons_self p e]
    rw [List.foldl_cons, this]
    exact ih fun k hk => h k (List.mem_cons_of_mem _ hk)

/-- C32. A single pole vertex becomes two: one on the meridian of the vertex before it, one on the meridian of the
vertex behind it, so that both sides at the pole run along meridians. The other vertices are as before. -/
theorem C32_pole (pi tol : K) (u v : List (Pt K)) (P : Pt K) (hP : pi / 2 - tol ≤ |P.2|)
    (hu : AwayFromPoles pi tol u) (hv : AwayFromPoles pi tol v) (h : v ++ u ≠ []) :
    poleLons pi tol (pairPoles pi tol (u ++ P :: v) 0) =
      u ++ (((v ++ u).getLast h).1, P.2) :: (((v ++ u).head h).1, P.2) :: v := by
  have hPp : isPole pi tol P = true := by simpa [isPole] using hP
  have hvu : ∀ q ∈ v ++ u, |q.2| < pi / 2 - tol := by
    intro q hq
    rcases List.mem_append.1 hq with hq | hq
    · exact hv q hq
    · exact hu q hq
  have hlast := hvu _ (List.getLast_mem h)
  have hhead := hvu _ (List.head_mem h)
  have lastne := pole_ne hPp hlast
  have headne := pole_ne hPp hhead
  set q1 := (v ++ u).getLast h with hq1
  set q2 := (v ++ u).head h with hq2
  -- the pairing
  have step1 : pairPoles pi tol (u ++ P :: v) 0 = u ++ P :: P :: v := by
    rw [pairPoles_upto u.length 0 (by simp) fun k hk _ hk2 => by
      rw [Nat.zero_add] at hk2
      rw [List.getElem_append_left hk2]
      exact notPole (hu _ (List.getElem_mem hk2)), Nat.zero_add]
    have e1 := prev_get u [P] v (by simp) h
    have e2 := next_get u [P] v u.length (by simp) h
    rw [List.append_assoc, List.singleton_append] at e1 e2
    have y1 : yAt (u ++ P :: v) (prevIx (u ++ P :: v) u.length) = q1.2 := by
      unfold yAt prevIx; rw [e1]; rfl
    have y2 : yAt (u ++ P :: v) (nextIx (u ++ P :: v) u.length) = q2.2 := by
      unfold yAt nextIx; rw [e2]; rfl
    have e3 : (u ++ P :: v)[u.length]'(by simp) = P := by simp
    rw [pairPoles, dif_pos (by simp)]
    simp only [e3, hPp, if_true, y1, y2]
    rw [if_neg (fun hh => lastne hh.1), if_pos ⟨lastne, headne⟩]
    have e4 : (u ++ P :: v).insertIdx u.length P = u ++ P :: P :: v := by
      clear * -
      induction u with
      | nil => rfl
      | cons a u ih => simp [ih]
    rw [e4]
    apply pairPoles_rest
    intro k hk hik
    rw [List.getElem_append_right (by omega)]
    obtain ⟨d, rfl⟩ : ∃ d, k = u.length + 2 + d := ⟨k - (u.length + 2), by omega⟩
    have hd : d < v.length := by simp at hk; omega
    simp only [show u.length + 2 + d - u.length = d + 2 by omega, List.getElem_cons_succ]
    exact notPole (hv _ (List.getElem_mem hd))
  rw [step1]
  -- the longitudes
  have hlen : (u ++ P :: P :: v).length = u.length + (2 + v.length) := by simp; omega
  unfold poleLons
  rw [hlen, List.range_add, List.range_add, List.map_append, List.foldl_append, List.foldl_append]
  rw [fold_skip (u ++ P :: P :: v) (List.range u.length) fun i hi p hp => by
    rw [List.mem_range] at hi
    rw [List.getElem?_append_left hi] at hp
    exact notPole (hu p (List.mem_of_getElem? hp))]
  have r2 : (List.range 2).map (fun x => u.length + x) = [u.length, u.length + 1] := by simp [List.range_succ]
  rw [r2, List.foldl_cons, List.foldl_cons, List.foldl_nil]
  have f1 : poleLon pi tol (u ++ P :: P :: v) u.length = u ++ (q1.1, P.2) :: P :: v := by
    have e1 := prev_get u [P, P] v (by simp) h
    rw [List.append_assoc] at e1
    change (u ++ P :: P :: v)[(u.length + (u ++ P :: P :: v).length - 1) % (u ++ P :: P :: v).length]? = _ at e1
    have y1 : yAt (u ++ P :: P :: v) (prevIx (u ++ P :: P :: v) u.length) = q1.2 := by
      unfold yAt prevIx; rw [e1]; rfl
    have x1 : xAt (u ++ P :: P :: v) (prevIx (u ++ P :: P :: v) u.length) = q1.1 := by
      unfold xAt prevIx; rw [e1]; rfl
    have e0 : (u ++ P :: P :: v)[u.length]? = some P := by simp
    have es : (u ++ P :: P :: v).set u.length (q1.1, P.2) = u ++ (q1.1, P.2) :: P :: v := by simp
    have y2 : yAt (u ++ (q1.1, P.2) :: P :: v) (nextIx (u ++ (q1.1, P.2) :: P :: v) u.length) = P.2 := by
      unfold yAt nextIx
      rw [Nat.mod_eq_of_lt (by simp)]
      simp
    unfold poleLon
    simp only [e0, hPp, if_true, y1, x1, ne_eq, lastne, not_false_eq_true, es, y2, not_true_eq_false, if_false]
  have f2 : poleLon pi tol (u ++ (q1.1, P.2) :: P :: v) (u.length + 1) =
      u ++ (q1.1, P.2) :: (q2.1, P.2) :: v := by
    have e1 := next_get u [(q1.1, P.2), P] v (u.length + 1) (by simp) h
    rw [List.append_assoc] at e1
    change (u ++ (q1.1, P.2) :: P :: v)[(u.length + 1 + 1) % (u ++ (q1.1, P.2) :: P :: v).length]? = _ at e1
    have y1 : yAt (u ++ (q1.1, P.2) :: P :: v) (prevIx (u ++ (q1.1, P.2) :: P :: v) (u.length + 1)) = P.2 := by
      unfold yAt prevIx
      rw [prev_mod (by simp), if_neg (by omega)]
      simp
    have y2 : yAt (u ++ (q1.1, P.2) :: P :: v) (nextIx (u ++ (q1.1, P.2) :: P :: v) (u.length + 1)) = q2.2 := by
      unfold yAt nextIx; rw [e1]; rfl
    have x2 : xAt (u ++ (q1.1, P.2) :: P :: v) (nextIx (u ++ (q1.1, P.2) :: P :: v) (u.length + 1)) = q2.1 := by
      unfold xAt nextIx; rw [e1]; rfl
    have e0 : (u ++ (q1.1, P.2) :: P :: v)[u.length + 1]? = some P := by
      rw [List.getElem?_append_right (by omega)]; simp
    have es : (u ++ (q1.1, P.2) :: P :: v).set (u.length + 1) (q2.1, P.2) = u ++ (q1.1, P.2) :: (q2.1, P.2) :: v := by
      rw [List.set_append_right _ _ (by omega)]; simp
    unfold poleLon
    simp only [e0, hPp, if_true, y1, ne_eq, not_true_eq_false, if_false, y2, x2, headne, not_false_eq_true, es]
  rw [f1, f2]
  apply fold_skip
  intro i hi p hp
  simp only [List.mem_map, List.mem_range] at hi
  obtain ⟨_, ⟨d, hd, rfl⟩, rfl⟩ := hi
  rw [List.getElem?_append_right (by omega), show u.length + (2 + d) - u.length = d + 2 by omega] at hp
  simp only [List.getElem?_cons_succ] at hp
  exact notPole (hv p (List.mem_of_getElem? hp))

/-- A triangle with its top at the north pole becomes a box in longitude and latitude. -/
example : poleLons (180 : ℚ) (1 / 10) (pairPoles 180 (1 / 10) ([(10, 80), (30, 80)] ++ (77, 90) :: []) 0) =
    [(10, 80), (30, 80), (30, 90), (10, 90)] := by
  rw [C32_pole]
  · rfl
  · norm_num
  · intro p hp; fin_cases hp <;> norm_num [abs_lt]
  · intro p hp; cases hp
  · simp

/-! ### A side over a pole -/

/-- C32. If the side from `q` to `p` (vertex `i`, the first such) joins opposite meridians, it runs over a pole: two
vertices are inserted in it, at the pole of the hemisphere of `p` and on the meridians of its two ends. -/
theorem C32_over_pole (pi small : K) (l : List (Pt K)) (i : Nat) (p q : Pt K) (hi : l[i]? = some p)
    (hq : l[(i + l.length - 1) % l.length]? = some q)
    (hp : |p.1 - q.1 + pi| < small ∨ |p.1 - q.1 - pi| < small)
    (hfirst : ∀ (k : Nat) (p q : Pt K), k < i → l[k]? = some p → l[(k + l.length - 1) % l.length]? = some q →
      small ≤ |p.1 - q.1 + pi| ∧ small ≤ |p.1 - q.1 - pi|) :
    twins pi small l = l.take i ++ (q.1, if p.2 < 0 then -(pi / 2) else pi / 2) ::
      (p.1, if p.2 < 0 then -(pi / 2) else pi / 2) :: l.drop i := by
  have hlt : i < l.length := by
    by_contra hc
    rw [List.getElem?_eq_none (by omega)] at hi
    exact absurd hi (by simp)
  have xi : xAt l i = p.1 := by unfold xAt; rw [hi]; rfl
  have yi : yAt l i = p.2 := by unfold yAt; rw [hi]; rfl
  have xq : xAt l (prevIx l i) = q.1 := by unfold xAt prevIx; rw [hq]; rfl
  have hf : (List.range l.length).find? (through pi small l) = some i := by
    rw [List.find?_range_eq_some]
    refine ⟨?_, List.mem_range.2 hlt, ?_⟩
    · unfold through; rw [xi, xq]; simpa using hp
    · intro k hk
      have hkl : k < l.length := by omega
      have hkm : (k + l.length - 1) % l.length < l.length := Nat.mod_lt _ (by omega)
      have := hfirst k _ _ hk (List.getElem?_eq_getElem hkl) (List.getElem?_eq_getElem hkm)
      have x1 : xAt l k = (l[k]).1 := by unfold xAt; rw [List.getElem?_eq_getElem hkl]; rfl
      have x2 : xAt l (prevIx l k) = (l[(k + l.length - 1) % l.length]).1 := by
        unfold xAt prevIx; rw [List.getElem?_eq_getElem hkm]; rfl
      unfold through
      rw [x1, x2]
      simpa using this
  unfold twins
  rw [hf]
  dsimp only
  rw [xi, yi, xq]
  have ins : ∀ (i : Nat) (l : List (Pt K)) (a b : Pt K), i ≤ l.length →
      (l.insertIdx i a).insertIdx i b = l.take i ++ b :: a :: l.drop i := by
    intro i
    induction i with
    | zero => intro l a b _; rfl
    | succ i ih =>
      intro l a b h
      cases l with
      | nil => simp at h
      | cons c l => simp at h; simp [ih l a b h]
  exact ins i l _ _ (by omega)

example : twins (180 : ℚ) (1 / 10) [(0, 80), (90, 80), (180, 80), (360, 80)] =
    [(0, 80), (90, 80), (180, 80), (180, 90), (360, 90), (360, 80)] := by
  rw [C32_over_pole 180 (1 / 10) _ 3 (360, 80) (180, 80) rfl rfl (by norm_num)]
  · norm_num
  · intro k p q hk h1 h2
    match k, hk with
    | 0, _ => simp at h1 h2; subst h1 h2; norm_num
    | 1, _ => simp at h1 h2; subst h1 h2; norm_num
    | 2, _ => simp at h1 h2; subst h1 h2; norm_num

/-! ### lon_in_range -/

/-- C32. `lon_in_range` ends, its result lies in `[strt, strt + 360]`, and it is the same meridian, or `strt` itself
when the longitude is within `small` of one of the two ends. -/
theorem C32_in_range [Archimedean K] (small lon strt : K) : ∃ n0 : Nat, ∀ fuel ≥ n0, ∃ r,
    lonInRange small fuel lon strt = some r ∧ strt ≤ r ∧ r ≤ strt + 360 ∧
      (SameMeridian 180 lon r ∨ (r = strt ∧ (|lon - strt| < small ∨ |lon - (strt + 360)| < small))) := by
  have h360 : (0 : K) < 360 := by norm_num
  obtain ⟨n, hn⟩ := Archimedean.arch (|lon - strt|) h360
  rw [nsmul_eq_mul] at hn
  have hb := abs_le.1 hn
  refine ⟨n + 1, fun fuel hf => ?_⟩
  unfold lonInRange
  dsimp only
  by_cases h1 : |lon - strt| < small
  · rw [if_pos h1]; exact ⟨strt, rfl, le_refl _, by linarith, Or.inr ⟨rfl, Or.inl h1⟩⟩
  rw [if_neg h1]
  by_cases h2 : |lon - (strt + 360)| < small
  · rw [if_pos h2]; exact ⟨strt, rfl, le_refl _, by linarith, Or.inr ⟨rfl, Or.inr h2⟩⟩
  rw [if_neg h2]
  have key : ∃ z : Int, rangeLoop strt (strt + 360) 360 fuel lon = some (lon + z * 360) ∧
      strt ≤ lon + z * 360 ∧ lon + z * 360 ≤ strt + 360 := by
    by_cases h3 : lon < strt
    · exact rangeLoop_up h360 n fuel lon hf (by linarith) (by linarith)
    · exact rangeLoop_down h360 n fuel lon hf (by linarith) (by linarith)
  obtain ⟨z, e, h3, h4⟩ := key
  exact ⟨_, e, h3, h4, Or.inl ⟨z, by norm_num⟩⟩

/-- C32. The result is not one number per meridian: the end of the range goes to its start, but a turn further on it
stays at the end. -/
theorem C32_range_ends_wrong : ∃ small strt lon : ℚ, 0 < small ∧ lonInRange small 9 lon strt = some strt ∧
    lonInRange small 9 (lon + 360) strt = some (strt + 360) := by
  refine ⟨1 / 100, 0, 360, by norm_num, ?_, ?_⟩ <;> norm_num [lonInRange, rangeLoop]

example : lonInRange (1 / 100 : ℚ) 9 (-730) 0 = some 350 := by norm_num [lonInRange, rangeLoop, abs_lt]

end Verif.Lon
