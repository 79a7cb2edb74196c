import Verif.Model.MakeRemap
import Verif.Props.Conserve
import Mathlib.Algebra.Order.Field.Rat
import Mathlib.Data.List.Perm.Basic
import Mathlib.Data.List.Nodup
import Mathlib.Tactic.Ring
import Mathlib.Tactic.Linarith
import Mathlib.Tactic.NormNum
import Mathlib.Tactic.FieldSimp
import Mathlib.Tactic.IntervalCases
/-
C136: remap files made by make_remap_file, as fregrid reads them.
-/
namespace Verif
open Conserve Spec MakeRemap RemapRuns

/-- The `r` by `r` cells of the fine grid in cell `(i, j)` of the coarse grid. -/
def block (r i j : Nat) : List (Nat × Nat) :=
  (List.range r).flatMap fun j1 => (List.range r).map fun i1 => (i * r + i1, j * r + j1)

namespace MakeRemap

theorem mem_positions {ni nj r : Nat} {p : Pos} : p ∈ positions ni nj r ↔
    p.i < ni ∧ p.j < nj ∧ p.i * r ≤ p.fi ∧ p.fi < p.i * r + r ∧ p.j * r ≤ p.fj ∧ p.fj < p.j * r + r := by
  unfold positions
  simp only [List.mem_flatMap, List.mem_range, List.mem_map]
  constructor
  · rintro ⟨j, hj, i, hi, j1, hj1, i1, hi1, rfl⟩
    exact ⟨hi, hj, by simp, by simpa using hi1, by simp, by simpa using hj1⟩
  · rintro ⟨hi, hj, h1, h2, h3, h4⟩
    refine ⟨p.j, hj, p.i, hi, p.fj - p.j * r, by omega, p.fi - p.i * r, by omega, ?_⟩
    cases p
    simp only at h1 h2 h3 h4 ⊢
    congr <;> omega

theorem mem_positions' {ni nj r : Nat} (hr : 0 < r) {p : Pos} : p ∈ positions ni nj r ↔
    p.fi < ni * r ∧ p.fj < nj * r ∧ p.i = p.fi / r ∧ p.j = p.fj / r := by
  rw [mem_positions]
  constructor
  · rintro ⟨hi, hj, h1, h2, h3, h4⟩
    have e1 : p.fi / r = p.i := by
      rw [Nat.div_eq_iff hr]; omega
    have e2 : p.fj / r = p.j := by
      rw [Nat.div_eq_iff hr]; omega
    refine ⟨?_, ?_, e1.symm, e2.symm⟩
    · rw [← Nat.div_lt_iff_lt_mul hr, e1]; exact hi
    · rw [← Nat.div_lt_iff_lt_mul hr, e2]; exact hj
  · rintro ⟨hi, hj, h1, h2⟩
    rw [← Nat.div_lt_iff_lt_mul hr] at hi hj
    have a1 := Nat.div_mul_le_self p.fi r
    have a2 := Nat.div_mul_le_self p.fj r
    have b1 := Nat.lt_div_mul_add (a := p.fi) hr
    have b2 := Nat.lt_div_mul_add (a := p.fj) hr
    rw [h1, h2]
    exact ⟨hi, hj, a1, b1, a2, b2⟩

theorem nodup_positions (ni nj r : Nat) : (positions ni nj r).Nodup := by
  unfold positions
  rw [List.nodup_flatMap]
  constructor
  · intro j _
    rw [List.nodup_flatMap]
    constructor
    · intro i _
      rw [List.nodup_flatMap]
      constructor
      · intro j1 _
        apply List.Nodup.map _ List.nodup_range
        intro a b h
        simp only [Pos.mk.injEq] at h
        omega
      · apply List.Pairwise.imp _ (List.nodup_range (n := r))
        intro a b hab
        rw [Function.onFun, List.disjoint_left]
        simp only [List.mem_map, List.mem_range]
        rintro p ⟨i1, _, rfl⟩ ⟨i2, _, h⟩
        simp only [Pos.mk.injEq] at h
        omega
    · apply List.Pairwise.imp _ (List.nodup_range (n := ni))
      intro a b hab
      rw [Function.onFun, List.disjoint_left]
      simp only [List.mem_map, List.mem_range, List.mem_flatMap]
      rintro p ⟨j1, _, i1, _, rfl⟩ ⟨j2, _, i2, _, h⟩
      simp only [Pos.mk.injEq] at h
      omega
  · apply List.Pairwise.imp _ (List.nodup_range (n := nj))
    intro a b hab
    rw [Function.onFun, List.disjoint_left]
    simp only [List.mem_map, List.mem_range, List.mem_flatMap]
    rintro p ⟨i, _, j1, _, i1, _, rfl⟩ ⟨i', _, j2, _, i2, _, h⟩
    simp only [Pos.mk.injEq] at h
    omega

theorem length_positions (ni nj r : Nat) : (positions ni nj r).length = (ni * r) * (nj * r) := by
  unfold positions
  simp only [List.length_flatMap, List.length_map, List.length_range, List.map_const', List.sum_replicate_nat]
  ring

theorem filter_eq_singleton {α : Type} {l : List α} (hn : l.Nodup) {q : α → Bool} {x : α} (hx : x ∈ l) (hq : q x = true)
    (hu : ∀ y ∈ l, q y = true → y = x) : l.filter q = [x] := by
  rw [← List.perm_singleton]
  rw [List.perm_ext_iff_of_nodup (hn.filter q) (List.nodup_singleton x)]
  intro y
  rw [List.mem_filter, List.mem_singleton]
  constructor
  · rintro ⟨h1, h2⟩; exact hu y h1 h2
  · rintro rfl; exact ⟨hx, hq⟩

theorem length_block (r i j : Nat) : (block r i j).length = r ^ 2 := by
  unfold block
  simp only [List.length_flatMap, List.length_map, List.length_range, List.map_const', List.sum_replicate_nat]
  ring

theorem mem_block {r i j : Nat} {p : Nat × Nat} :
    p ∈ block r i j ↔ i * r ≤ p.1 ∧ p.1 < i * r + r ∧ j * r ≤ p.2 ∧ p.2 < j * r + r := by
  unfold block
  simp only [List.mem_flatMap, List.mem_map, List.mem_range]
  constructor
  · rintro ⟨j1, h1, i1, h2, rfl⟩
    exact ⟨by simp, by simpa using h2, by simp, by simpa using h1⟩
  · rintro ⟨h1, h2, h3, h4⟩
    refine ⟨p.2 - j * r, by omega, p.1 - i * r, by omega, ?_⟩
    ext <;> simp only <;> omega

theorem nodup_block (r i j : Nat) : (block r i j).Nodup := by
  unfold block
  rw [List.nodup_flatMap]
  constructor
  · intro j1 _
    apply List.Nodup.map _ List.nodup_range
    intro a b h
    simp only [Prod.mk.injEq] at h
    omega
  · apply List.Pairwise.imp _ (List.nodup_range (n := r))
    intro a b hab
    rw [Function.onFun, List.disjoint_left]
    simp only [List.mem_map, List.mem_range]
    rintro p ⟨i1, _, rfl⟩ ⟨i2, _, h⟩
    simp only [Prod.mk.injEq] at h
    omega

theorem positions_block {ni nj r i j : Nat} (hi : i < ni) (hj : j < nj) :
    ((positions ni nj r).filter fun p => decide (p.i = i ∧ p.j = j)).Perm ((block r i j).map fun p => ⟨i, j, p.1, p.2⟩) := by
  rw [List.perm_ext_iff_of_nodup ((nodup_positions _ _ _).filter _)]
  · intro p
    rw [List.mem_filter, mem_positions]
    simp only [List.mem_map, mem_block, decide_eq_true_eq]
    constructor
    · rintro ⟨⟨_, _, a1, a2, a3, a4⟩, rfl, rfl⟩
      exact ⟨(p.fi, p.fj), ⟨a1, a2, a3, a4⟩, rfl⟩
    · rintro ⟨q, ⟨a1, a2, a3, a4⟩, rfl⟩
      exact ⟨⟨hi, hj, a1, a2, a3, a4⟩, rfl, rfl⟩
  · apply List.Nodup.map _ (nodup_block r i j)
    intro a b h
    simp only [Pos.mk.injEq] at h
    exact Prod.ext h.2.2.1 h.2.2.2

variable {K : Type} [Field K] [LinearOrder K] [IsStrictOrderedRing K] (G : Geo K)

omit [IsStrictOrderedRing K] in
theorem accum_eq (ps : List Pos) (v : Pos → K) (i j : Nat) :
    accum ps v i j = total v (ps.filter fun p => decide (p.i = i ∧ p.j = j)) := by
  unfold accum total
  generalize ps.filter _ = l
  have : ∀ (l : List Pos) (a : K), l.foldl (fun a p => a + v p) a = a + (l.map v).sum := by
    intro l
    induction l with
    | nil => intro a; simp
    | cons p l ih => intro a; rw [List.foldl_cons, ih, List.map_cons, List.sum_cons]; ring
  rw [this, zero_add]

omit [IsStrictOrderedRing K] in
theorem ratio_fine {eps : K} {gin gout : Grid K} {r : Nat} (h : ratio eps gin gout = .ok (true, r)) :
    gout.nx = r * gin.nx ∧ gout.ny = r * gin.ny ∧ 0 < r ∧ corners eps gin gout r = true ∧ 0 < gin.nx ∧ 0 < gin.ny := by
  unfold ratio at h
  by_cases h0 : gin.nx = 0 ∨ gin.ny = 0 ∨ gout.nx = 0 ∨ gout.ny = 0
  · simp [h0] at h
  rw [if_neg h0] at h
  by_cases h1 : gout.nx % gin.nx = 0 ∧ gout.ny % gin.ny = 0
  · rw [if_pos h1] at h
    by_cases h2 : gout.nx / gin.nx ≠ gout.ny / gin.ny
    · simp [h2] at h
    rw [if_neg h2] at h
    by_cases h3 : corners eps gin gout (gout.nx / gin.nx) = true
    · rw [if_pos h3] at h
      have e : gout.nx / gin.nx = r := by simpa using h
      subst e
      have h2' : gout.nx / gin.nx = gout.ny / gin.ny := by simpa using h2
      have e1 := Nat.div_add_mod gout.nx gin.nx
      have e2 := Nat.div_add_mod gout.ny gin.ny
      rw [h1.1] at e1
      rw [h1.2] at e2
      refine ⟨by rw [Nat.mul_comm]; omega, by rw [h2', Nat.mul_comm]; omega, ?_, h3, by omega, by omega⟩
      apply Nat.div_pos _ (by omega)
      exact Nat.le_of_dvd (by omega) (Nat.dvd_of_mod_eq_zero h1.1)
    · simp [h3] at h
  · rw [if_neg h1] at h
    by_cases h2 : gin.nx % gout.nx = 0 ∧ gin.ny % gout.ny = 0
    · rw [if_pos h2] at h
      by_cases h3 : gin.nx / gout.nx ≠ gin.ny / gout.ny
      · simp [h3] at h
      · rw [if_neg h3] at h
        by_cases h4 : corners eps gout gin (gin.nx / gout.nx) = true
        · simp [h4] at h
        · simp [h4] at h
    · simp [h2] at h

omit [IsStrictOrderedRing K] in
theorem ratio_coarse {eps : K} {gin gout : Grid K} {r : Nat} (h : ratio eps gin gout = .ok (false, r)) :
    gin.nx = r * gout.nx ∧ gin.ny = r * gout.ny ∧ 1 < r ∧ corners eps gout gin r = true ∧ 0 < gout.nx ∧ 0 < gout.ny := by
  unfold ratio at h
  by_cases h0 : gin.nx = 0 ∨ gin.ny = 0 ∨ gout.nx = 0 ∨ gout.ny = 0
  · simp [h0] at h
  rw [if_neg h0] at h
  by_cases h1 : gout.nx % gin.nx = 0 ∧ gout.ny % gin.ny = 0
  · rw [if_pos h1] at h
    by_cases h2 : gout.nx / gin.nx ≠ gout.ny / gin.ny
    · simp [h2] at h
    rw [if_neg h2] at h
    by_cases h3 : corners eps gin gout (gout.nx / gin.nx) = true
    · simp [h3] at h
    · simp [h3] at h
  · rw [if_neg h1] at h
    by_cases h2 : gin.nx % gout.nx = 0 ∧ gin.ny % gout.ny = 0
    · rw [if_pos h2] at h
      by_cases h3 : gin.nx / gout.nx ≠ gin.ny / gout.ny
      · simp [h3] at h
      · rw [if_neg h3] at h
        by_cases h4 : corners eps gout gin (gin.nx / gout.nx) = true
        · rw [if_pos h4] at h
          have e : gin.nx / gout.nx = r := by simpa using h
          subst e
          have h3' : gin.nx / gout.nx = gin.ny / gout.ny := by simpa using h3
          have e1 := Nat.div_add_mod gin.nx gout.nx
          have e2 := Nat.div_add_mod gin.ny gout.ny
          rw [h2.1] at e1
          rw [h2.2] at e2
          have ex : gin.nx = gin.nx / gout.nx * gout.nx := by rw [Nat.mul_comm]; omega
          have ey : gin.ny = gin.nx / gout.nx * gout.ny := by rw [h3', Nat.mul_comm]; omega
          refine ⟨ex, ey, ?_, h4, by omega, by omega⟩
          by_contra hc
          have hp : 0 < gin.nx / gout.nx :=
            Nat.div_pos (Nat.le_of_dvd (by omega) (Nat.dvd_of_mod_eq_zero h2.1)) (by omega)
          have h1' : gin.nx / gout.nx = 1 := by omega
          rw [h1'] at ex ey
          apply h1
          rw [ex, ey]
          simp
        · simp [h4] at h
    · simp [h2] at h

/-- What the loop has done for each tile. -/
theorem tiles_get {eps : K} {o2 : Bool} : ∀ {l : List (Grid K × Grid K)} {n : Nat} {s : Option State} {cs : List (List (XCell K))},
    tiles G eps o2 n s l = .ok cs → cs.length = l.length ∧ ∀ (k : Nat) (t : Grid K × Grid K), l[k]? = some t →
      ∃ c, cs[k]? = some c ∧ cellsOf G eps o2 (n + k) t.1 t.2 = .ok c ∧ odd t.1 = false ∧ odd t.2 = false := by
  intro l
  induction l with
  | nil =>
    intro n s cs h
    simp only [tiles] at h
    cases h
    simp
  | cons t l ih =>
    intro n s cs h
    simp only [tiles] at h
    generalize hs : step G eps o2 n s t.1 t.2 = x at h
    cases x with
    | error e => simp at h
    | ok x =>
      obtain ⟨s', c⟩ := x
      simp only at h
      generalize ht : tiles G eps o2 (n + 1) (some s') l = y at h
      cases y with
      | error e => simp at h
      | ok rest =>
        simp only [Except.ok.injEq] at h
        subst h
        obtain ⟨hl, hg⟩ := ih ht
        refine ⟨by simp [hl], ?_⟩
        intro k u hk
        cases k with
        | zero =>
          simp only [List.getElem?_cons_zero, Option.some.injEq] at hk
          subst hk
          refine ⟨c, by simp, ?_⟩
          unfold step at hs
          by_cases h1 : odd t.1 = true
          · simp [h1] at hs
          rw [if_neg h1] at hs
          by_cases h3 : otherIn s t.1 = true
          · simp [h3] at hs
          · rw [if_neg h3] at hs
            by_cases h2 : odd t.2 = true
            · simp [h2] at hs
            rw [if_neg h2] at hs
            by_cases h4 : otherOut n s t.2 = true
            · simp [h4] at hs
            · rw [if_neg h4] at hs
              simp only at hs
              split at hs
              · simp at hs
              · generalize cellsOf G eps o2 n t.1 t.2 = z at hs ⊢
                cases z with
                | error e => simp at hs
                | ok z =>
                  simp only at hs
                  split at hs
                  · simp at hs
                  · simp only [Except.ok.injEq, Prod.mk.injEq] at hs
                    exact ⟨by rw [← hs.2], by simpa using h1, by simpa using h2⟩
        | succ k =>
          rw [List.getElem?_cons_succ] at hk
          obtain ⟨c', h1, h2⟩ := hg k u hk
          refine ⟨c', by simpa using h1, ?_⟩
          rw [show n + (k + 1) = n + 1 + k by omega]
          exact h2

theorem main_get {eps : K} {o2 : Bool} {gin gout : List (Grid K)} {files : List (List (RemapRec K))}
    (h : main G eps o2 gin gout = .ok files) (n : Nat) (a b : Grid K) (f : List (RemapRec K)) (ha : gin[n]? = some a)
    (hb : gout[n]? = some b) (hf : files[n]? = some f) :
    ∃ c, f = c.map record ∧ cellsOf G eps o2 n a b = .ok c ∧ odd a = false ∧ odd b = false := by
  unfold main at h
  by_cases h1 : gin.length ≠ gout.length
  · simp [h1] at h
  rw [if_neg h1] at h
  by_cases h2 : gin.length ≠ 6 ∧ o2 = true
  · simp [h2] at h
  rw [if_neg h2] at h
  generalize ht : tiles G eps o2 0 none (gin.zip gout) = x at h
  cases x with
  | error e => simp at h
  | ok l =>
    simp only [Except.ok.injEq] at h
    obtain ⟨_, hg⟩ := tiles_get G ht
    obtain ⟨c, hc, hr, ho⟩ := hg n (a, b) (by rw [List.getElem?_zip_eq_some]; exact ⟨ha, hb⟩)
    rw [← h, List.getElem?_map, hc] at hf
    simp only [Option.map_some, Option.some.injEq] at hf
    rw [Nat.zero_add] at hr
    exact ⟨c, hf.symm, hr, ho⟩

omit [LinearOrder K] [IsStrictOrderedRing K] in
theorem read_record (garea : K) (hg : garea ≠ 0) (nx ny : Nat) (cs : List (XCell K)) (hc : ∀ c ∈ cs, c.i2 < nx ∧ c.j2 < ny) :
    readRemap garea 0 ((nx : Int) - 1) 0 ((ny : Int) - 1) (cs.map record) = cs := by
  unfold readRemap
  induction cs with
  | nil => rfl
  | cons c cs ih =>
    have h1 := hc c List.mem_cons_self
    have hr : readRec garea 0 ((nx : Int) - 1) 0 ((ny : Int) - 1) (record c) = some c := by
      unfold readRec record
      simp only
      rw [if_pos (by omega)]
      congr 1
      cases c
      simp only [add_sub_cancel_right, sub_zero, Int.toNat_natCast]
      rw [div_mul_cancel₀ _ hg]
    rw [List.map_cons, List.filterMap_cons, hr]
    simp only
    rw [ih fun d hd => hc d (List.mem_cons_of_mem _ hd)]

omit [IsStrictOrderedRing K] [LinearOrder K] [Field K] in
theorem odd_false {g : Grid K} (h : odd g = false) : g.nx % 2 = 0 ∧ g.ny % 2 = 0 := by
  unfold odd at h
  simpa using h

theorem half_mul {a b r : Nat} (h : b = r * a) (ha : a % 2 = 0) : b / 2 = a / 2 * r := by
  obtain ⟨k, rfl⟩ : ∃ k, a = 2 * k := ⟨a / 2, by omega⟩
  subst h
  rw [show r * (2 * k) = 2 * (k * r) by ring]
  simp

end MakeRemap

variable {K : Type} [Field K] [LinearOrder K] [IsStrictOrderedRing K] (G : Geo K)

/-- The exchange cells fregrid gets from a file for an output tile of `nx` by `ny` cells. -/
def readAll (garea : K) (nx ny : Nat) (f : List (RemapRec K)) : List (XCell K) :=
  readRemap garea 0 ((nx : Int) - 1) 0 ((ny : Int) - 1) f

/-- The program has finished; `f` is the file of tile `n` (counted from 0), `a` and `b` are the tiles of the grids. -/
structure Made (eps : K) (o2 : Bool) (n : Nat) (a b : Grid K) (f : List (RemapRec K)) : Prop where
  run : ∃ gin gout files, main G eps o2 gin gout = .ok files ∧ gin[n]? = some a ∧ gout[n]? = some b ∧ files[n]? = some f

namespace MakeRemap
variable {G}

theorem made_cases {eps : K} {o2 : Bool} {n : Nat} {a b : Grid K} {f : List (RemapRec K)} (h : Made G eps o2 n a b f) :
    (a.nx % 2 = 0 ∧ a.ny % 2 = 0 ∧ b.nx % 2 = 0 ∧ b.ny % 2 = 0) ∧
    ((∃ r, ratio eps a b = .ok (true, r) ∧ f = (fine G o2 n a b r).map record) ∨
     (∃ r, ratio eps a b = .ok (false, r) ∧ f = (coarse G n b r).map record)) := by
  obtain ⟨gin, gout, files, hm, ha, hb, hf⟩ := h.run
  obtain ⟨c, hc, hr, h1, h2⟩ := main_get G hm n a b f ha hb hf
  have h1' := odd_false h1
  have h2' := odd_false h2
  refine ⟨⟨h1'.1, h1'.2, h2'.1, h2'.2⟩, ?_⟩
  unfold cellsOf at hr
  generalize ratio eps a b = x at hr
  cases x with
  | error e => simp at hr
  | ok x =>
    obtain ⟨d, r⟩ := x
    cases d
    · simp only [Except.ok.injEq] at hr
      exact .inr ⟨r, rfl, by rw [hc, hr]⟩
    · simp only [Except.ok.injEq] at hr
      exact .inl ⟨r, rfl, by rw [hc, hr]⟩

omit [IsStrictOrderedRing K] in
theorem fine_grid {o2 : Bool} {n : Nat} {a b : Grid K} {r : Nat} (hr : 0 < r) (hx : b.nx / 2 = a.nx / 2 * r)
    (hy : b.ny / 2 = a.ny / 2 * r) : InGrid (b.nx / 2) (b.ny / 2) (fine G o2 n a b r) := by
  intro c hc
  unfold fine at hc
  simp only [List.mem_map] at hc
  obtain ⟨p, hp, rfl⟩ := hc
  rw [mem_positions' hr] at hp
  simp only
  rw [hx, hy]
  exact ⟨hp.1, hp.2.1⟩

theorem made_fine {eps : K} {o2 : Bool} {n : Nat} {a b : Grid K} {f : List (RemapRec K)} (h : Made G eps o2 n a b f)
    (hab : a.nx ≤ b.nx) (garea : K) (hg : garea ≠ 0) :
    ∃ r, 0 < r ∧ b.nx = r * a.nx ∧ b.ny = r * a.ny ∧ b.nx / 2 = a.nx / 2 * r ∧ b.ny / 2 = a.ny / 2 * r ∧ r = b.nx / a.nx ∧
      corners eps a b r = true ∧ readAll garea (b.nx / 2) (b.ny / 2) f = fine G o2 n a b r := by
  obtain ⟨he, h | h⟩ := made_cases h
  · obtain ⟨r, hr, hf⟩ := h
    obtain ⟨h1, h2, h3, h4, h5, h6⟩ := ratio_fine hr
    have hx := half_mul h1 he.1
    have hy := half_mul h2 he.2.1
    refine ⟨r, h3, h1, h2, hx, hy, by rw [h1, Nat.mul_div_cancel _ h5], h4, ?_⟩
    rw [hf]
    exact read_record garea hg _ _ _ (fine_grid h3 hx hy)
  · obtain ⟨r, hr, hf⟩ := h
    obtain ⟨h1, h2, h3, h4, h5, h6⟩ := ratio_coarse hr
    exfalso
    have : 2 * b.nx ≤ r * b.nx := Nat.mul_le_mul_right _ h3
    omega

theorem made_coarse {eps : K} {o2 : Bool} {n : Nat} {a b : Grid K} {f : List (RemapRec K)} (h : Made G eps o2 n a b f)
    (hab : b.nx < a.nx) (garea : K) (hg : garea ≠ 0) :
    ∃ r, 1 < r ∧ a.nx = r * b.nx ∧ a.ny = r * b.ny ∧ r = a.nx / b.nx ∧ corners eps b a r = true ∧
      InGrid (b.nx / 2) (b.ny / 2) (coarse G n b r) ∧ readAll garea (b.nx / 2) (b.ny / 2) f = coarse G n b r := by
  obtain ⟨he, h | h⟩ := made_cases h
  · obtain ⟨r, hr, hf⟩ := h
    obtain ⟨h1, h2, h3, h4, h5, h6⟩ := ratio_fine hr
    exfalso
    have : 1 * a.nx ≤ r * a.nx := Nat.mul_le_mul_right _ h3
    omega
  · obtain ⟨r, hr, hf⟩ := h
    obtain ⟨h1, h2, h3, h4, h5, h6⟩ := ratio_coarse hr
    have hi : InGrid (b.nx / 2) (b.ny / 2) (coarse G n b r) := by
      intro c hc
      unfold coarse at hc
      simp only [List.mem_map] at hc
      obtain ⟨p, hp, rfl⟩ := hc
      rw [mem_positions] at hp
      exact ⟨hp.1, hp.2.1⟩
    refine ⟨r, h3, h1, h2, by rw [h1, Nat.mul_div_cancel _ h5], h4, hi, ?_⟩
    rw [hf]
    exact read_record garea hg _ _ _ hi

omit [IsStrictOrderedRing K] in
theorem overlap_fine {o2 : Bool} {n : Nat} {a b : Grid K} {r : Nat} (hr : 0 < r) (hx : b.nx / 2 = a.nx / 2 * r)
    (hy : b.ny / 2 = a.ny / 2 * r) {i j : Nat} (hi : i < b.nx / 2) (hj : j < b.ny / 2) :
    ∃ c, overlap i j (fine G o2 n a b r) = [c] ∧ c ∈ fine G o2 n a b r ∧ c.t1 = n ∧ c.i1 = i / r ∧ c.j1 = j / r ∧
      c.area = G.area (quad b i j) := by
  unfold overlap fine
  simp only
  rw [List.filter_map]
  have hm : (⟨i / r, j / r, i, j⟩ : Pos) ∈ positions (a.nx / 2) (a.ny / 2) r := by
    rw [mem_positions' hr]
    exact ⟨by rw [← hx]; exact hi, by rw [← hy]; exact hj, rfl, rfl⟩
  rw [filter_eq_singleton (nodup_positions _ _ _) hm]
  · refine ⟨_, rfl, ?_, rfl, rfl, rfl, rfl⟩
    exact List.mem_map_of_mem hm
  · simp
  · intro p hp hq
    simp only [Function.comp_apply, decide_eq_true_eq] at hq
    rw [mem_positions' hr] at hp
    cases p
    simp only at hp hq
    obtain ⟨rfl, rfl⟩ := hq
    rw [hp.2.2.1, hp.2.2.2]

end MakeRemap

/-- C136, output grid finer (or the same). Every output cell is covered by exactly one exchange cell: its own area, from the input cell of the same tile that
encloses it. -/
theorem C136_fine (eps : K) (o2 : Bool) (n : Nat) (a b : Grid K) (f : List (RemapRec K)) (h : Made G eps o2 n a b f) (hab : a.nx ≤ b.nx)
    (garea : K) (hg : garea ≠ 0) :
    let cells := readAll garea (b.nx / 2) (b.ny / 2) f
    let r := b.nx / a.nx
    b.nx = r * a.nx ∧ b.ny = r * a.ny ∧ InGrid (b.nx / 2) (b.ny / 2) cells ∧ cells.length = (b.nx / 2) * (b.ny / 2) ∧
    ∀ i j, i < b.nx / 2 → j < b.ny / 2 → ∃ c, overlap i j cells = [c] ∧ c.t1 = n ∧ c.i1 = i / r ∧ c.j1 = j / r ∧
      c.area = G.area (quad b i j) := by
  obtain ⟨r, h0, h1, h2, hx, hy, hr, hc, hf⟩ := made_fine h hab garea hg
  simp only
  rw [hf, ← hr]
  refine ⟨h1, h2, fine_grid h0 hx hy, ?_, ?_⟩
  · unfold fine
    rw [List.length_map, length_positions, hx, hy]
  · intro i j hi hj
    obtain ⟨c, e1, _, e2⟩ := overlap_fine (G := G) (o2 := o2) (n := n) h0 hx hy hi hj
    exact ⟨c, e1, e2⟩

/-- C136, output grid finer, first order: what fregrid makes with the file is the value of the enclosing input cell, also for missing values. -/
theorem C136_fine_value (eps : K) (o2 : Bool) (n : Nat) (a b : Grid K) (f : List (RemapRec K)) (h : Made G eps o2 n a b f) (hab : a.nx ≤ b.nx)
    (garea : K) (hg : garea ≠ 0) (hpos : ∀ i j, i < b.nx / 2 → j < b.ny / 2 → 0 < G.area (quad b i j)) (cf : Conf K) (s : Src K)
    (h1 : cf.nx1 n = a.nx / 2) (h2 : cf.nx2 = b.nx / 2) (ho : cf.order2 = false) (hw : cf.weight = none) (hme : cf.measures = none)
    (hs : cf.sum = false) (ht : cf.target = false) :
    ∃ out, scalarInterp cf s (readAll garea (b.nx / 2) (b.ny / 2) f) = some out ∧
      ∀ i j, i < b.nx / 2 → j < b.ny / 2 →
        out (j * (b.nx / 2) + i) = s.data n (j / (b.nx / a.nx) * (a.nx / 2) + i / (b.nx / a.nx)) := by
  obtain ⟨r, h0, e1, e2, hx, hy, hr, hc, hf⟩ := made_fine h hab garea hg
  rw [hf, ← hr]
  have hin : InGrid cf.nx2 (b.ny / 2) (fine G o2 n a b r) := by rw [h2]; exact fine_grid h0 hx hy
  have hall : ∀ c ∈ fine G o2 n a b r, 0 < c.area := by
    intro c hcm
    have hg' := fine_grid (G := G) (o2 := o2) (n := n) h0 hx hy c hcm
    obtain ⟨d, d1, d2, d3, d4, d5, d6⟩ := overlap_fine (G := G) (o2 := o2) (n := n) h0 hx hy hg'.1 hg'.2
    have hmem : c ∈ overlap c.i2 c.j2 (fine G o2 n a b r) := by
      unfold overlap
      rw [List.mem_filter]
      exact ⟨hcm, by simp⟩
    rw [d1, List.mem_singleton] at hmem
    rw [hmem, d6]
    exact hpos _ _ hg'.1 hg'.2
  obtain ⟨out, hout, hv⟩ := C27_fregrid_plain cf s (b.ny / 2) _ hin ho hw hme hs ht hall
  refine ⟨out, hout, ?_⟩
  intro i j hi hj
  have := hv i j (by rw [h2]; exact hi)
  rw [h2] at this
  rw [this]
  obtain ⟨d, d1, d2, d3, d4, d5, d6⟩ := overlap_fine (G := G) (o2 := o2) (n := n) h0 hx hy hi hj
  simp only
  rw [d1]
  have hd := hall d d2
  by_cases hq : (!cf.hasMissing || decide (s.data d.t1 (d.j1 * cf.nx1 d.t1 + d.i1) ≠ cf.missing)) = true
  · rw [List.filter_cons, if_pos hq, List.filter_nil, if_neg (by simp)]
    unfold wmean total
    simp only [List.map_cons, List.map_nil, List.sum_cons, List.sum_nil, add_zero]
    rw [mul_div_assoc, div_self (ne_of_gt hd), mul_one, d3, d4, d5, h1]
  · rw [List.filter_cons, if_neg hq, List.filter_nil, if_pos rfl]
    have : s.data d.t1 (d.j1 * cf.nx1 d.t1 + d.i1) = cf.missing := by
      by_contra hne
      exact hq (by simp [hne])
    rw [← this, d3, d4, d5, h1]

/-- C136, output grid finer, second order: for every input cell and every gradient, the values of its exchange cells have the mean of the input cell. -/
theorem C136_fine_order2 (eps : K) (n : Nat) (a b : Grid K) (f : List (RemapRec K)) (h : Made G eps true n a b f) (hab : a.nx ≤ b.nx)
    (garea : K) (hg : garea ≠ 0) (hpos : ∀ i j, i < b.nx / 2 → j < b.ny / 2 → 0 < G.area (quad b i j)) (i j : Nat)
    (hi : i < a.nx / 2) (hj : j < a.ny / 2) (v gx gy : K) :
    let part := (readAll garea (b.nx / 2) (b.ny / 2) f).filter fun c => decide (c.i1 = i ∧ c.j1 = j)
    part.length = (b.nx / a.nx) ^ 2 ∧
    total (fun c => c.area * (v + gx * c.di + gy * c.dj)) part = v * total (fun c => c.area) part := by
  obtain ⟨r, h0, e1, e2, hx, hy, hr, hc, hf⟩ := made_fine h hab garea hg
  simp only
  rw [hf, ← hr]
  unfold fine
  simp only [if_true]
  rw [List.filter_map]
  set ps := positions (a.nx / 2) (a.ny / 2) r with hps
  have hfil : (List.filter ((fun c : XCell K => decide (c.i1 = i ∧ c.j1 = j)) ∘ fun p : Pos =>
      (⟨n, p.i, p.j, p.fi, p.fj, G.area (quad b p.fi p.fj),
        G.ctrlon (quad b p.fi p.fj) (G.avg (quad a p.i p.j)) / G.area (quad b p.fi p.fj) -
          accum ps (fun p => G.ctrlon (quad b p.fi p.fj) (G.avg (quad a p.i p.j))) p.i p.j / accum ps (fun p => G.area (quad b p.fi p.fj)) p.i p.j,
        G.ctrlat (quad b p.fi p.fj) / G.area (quad b p.fi p.fj) -
          accum ps (fun p => G.ctrlat (quad b p.fi p.fj)) p.i p.j / accum ps (fun p => G.area (quad b p.fi p.fj)) p.i p.j⟩ : XCell K)) ps) =
      ps.filter fun p => decide (p.i = i ∧ p.j = j) := rfl
  rw [hfil]
  set q := ps.filter fun p => decide (p.i = i ∧ p.j = j) with hq
  have hqm : ∀ p ∈ q, p.i = i ∧ p.j = j ∧ 0 < G.area (quad b p.fi p.fj) := by
    intro p hp
    rw [hq, List.mem_filter] at hp
    have h1 := hp.1
    rw [hps, mem_positions' h0] at h1
    have h2 : p.i = i ∧ p.j = j := by simpa using hp.2
    exact ⟨h2.1, h2.2, hpos _ _ (by rw [hx]; exact h1.1) (by rw [hy]; exact h1.2.1)⟩
  refine ⟨?_, ?_⟩
  · rw [List.length_map]
    rw [hq, hps, (positions_block hi hj).length_eq, List.length_map, length_block]
  · have hA : accum ps (fun p => G.area (quad b p.fi p.fj)) i j = total (fun p : Pos => G.area (quad b p.fi p.fj)) q := accum_eq _ _ _ _
    have hX : accum ps (fun p => G.ctrlon (quad b p.fi p.fj) (G.avg (quad a p.i p.j))) i j =
      total (fun p : Pos => G.ctrlon (quad b p.fi p.fj) (G.avg (quad a p.i p.j))) q := accum_eq _ _ _ _
    have hY : accum ps (fun p => G.ctrlat (quad b p.fi p.fj)) i j = total (fun p : Pos => G.ctrlat (quad b p.fi p.fj)) q := accum_eq _ _ _ _
    by_cases hne : q = []
    · rw [hne]; simp [total]
    have hAp : 0 < total (fun p : Pos => G.area (quad b p.fi p.fj)) q := by
      unfold total
      apply List.sum_pos
      · intro x hx'
        rw [List.mem_map] at hx'
        obtain ⟨p, hp, rfl⟩ := hx'
        exact (hqm p hp).2.2
      · simpa using hne
    set cA := total (fun p : Pos => G.area (quad b p.fi p.fj)) q with hcA
    set cX := total (fun p : Pos => G.ctrlon (quad b p.fi p.fj) (G.avg (quad a p.i p.j))) q with hcX
    set cY := total (fun p : Pos => G.ctrlat (quad b p.fi p.fj)) q with hcY
    have key : ∀ (l : List Pos), (∀ p ∈ l, p.i = i ∧ p.j = j ∧ 0 < G.area (quad b p.fi p.fj)) →
        total (fun p : Pos => G.area (quad b p.fi p.fj) * (v + gx * (G.ctrlon (quad b p.fi p.fj) (G.avg (quad a p.i p.j)) / G.area (quad b p.fi p.fj) -
          accum ps (fun p => G.ctrlon (quad b p.fi p.fj) (G.avg (quad a p.i p.j))) p.i p.j / accum ps (fun p => G.area (quad b p.fi p.fj)) p.i p.j) +
          gy * (G.ctrlat (quad b p.fi p.fj) / G.area (quad b p.fi p.fj) -
          accum ps (fun p => G.ctrlat (quad b p.fi p.fj)) p.i p.j / accum ps (fun p => G.area (quad b p.fi p.fj)) p.i p.j))) l =
        v * total (fun p : Pos => G.area (quad b p.fi p.fj)) l +
          gx * (total (fun p : Pos => G.ctrlon (quad b p.fi p.fj) (G.avg (quad a p.i p.j))) l - cX / cA * total (fun p : Pos => G.area (quad b p.fi p.fj)) l) +
          gy * (total (fun p : Pos => G.ctrlat (quad b p.fi p.fj)) l - cY / cA * total (fun p : Pos => G.area (quad b p.fi p.fj)) l) := by
      intro l
      induction l with
      | nil => intro _; simp [total]
      | cons p l ih =>
        intro hl
        have hp := hl p List.mem_cons_self
        have ih' := ih fun p' hp' => hl p' (List.mem_cons_of_mem _ hp')
        unfold total at ih' ⊢
        simp only [List.map_cons, List.sum_cons]
        rw [ih', hp.1, hp.2.1, hA, hX, hY]
        have hz := ne_of_gt hp.2.2
        field_simp
        ring
    have hk := key q hqm
    unfold total at hk ⊢
    rw [List.map_map, List.map_map]
    refine Eq.trans hk ?_
    have hz := ne_of_gt hAp
    change v * cA + gx * (cX - cX / cA * cA) + gy * (cY - cY / cA * cA) = v * cA
    rw [div_mul_cancel₀ _ hz, div_mul_cancel₀ _ hz]
    ring

/-- C136, input grid finer: the exchange cells of an output cell are the input cells in it, each once. The area of each of them in the file is that of the whole output
cell. -/
theorem C136_coarse_partial (eps : K) (o2 : Bool) (n : Nat) (a b : Grid K) (f : List (RemapRec K)) (h : Made G eps o2 n a b f) (hab : b.nx < a.nx)
    (garea : K) (hg : garea ≠ 0) :
    let cells := readAll garea (b.nx / 2) (b.ny / 2) f
    let r := a.nx / b.nx
    a.nx = r * b.nx ∧ a.ny = r * b.ny ∧ InGrid (b.nx / 2) (b.ny / 2) cells ∧
    ∀ i j, i < b.nx / 2 → j < b.ny / 2 → (overlap i j cells).Perm
      ((block r i j).map fun p => (⟨n, p.1, p.2, i, j, G.area (quad b i j), 0, 0⟩ : XCell K)) := by
  obtain ⟨r, h0, h1, h2, hr, hc, hin, hf⟩ := made_coarse h hab garea hg
  simp only
  rw [hf, ← hr]
  refine ⟨h1, h2, hin, ?_⟩
  intro i j hi hj
  unfold overlap coarse
  rw [List.filter_map]
  have hm := (positions_block (r := r) hi hj).map fun p : Pos => (⟨n, p.fi, p.fj, p.i, p.j, G.area (quad b p.i p.j), 0, 0⟩ : XCell K)
  rw [List.map_map] at hm
  exact hm

/-- What first order conservative interpolation should make of an output cell: the mean over the input cells in it with the areas of the input cells. -/
def blockMean (a : Grid K) (r i j : Nat) (v : Nat → Nat → K) : K :=
  wmean (fun p : Nat × Nat => G.area (quad a p.1 p.2)) (fun p => v p.1 p.2)
    (block r i j)

/-- C136, input grid finer, first order: what fregrid makes with the file is the plain mean of the input cells, whatever their areas. -/
theorem C136_coarse_value_partial (eps : K) (o2 : Bool) (n : Nat) (a b : Grid K) (f : List (RemapRec K)) (h : Made G eps o2 n a b f) (hab : b.nx < a.nx)
    (garea : K) (hg : garea ≠ 0) (src : Nat → K) (i j : Nat) (hi : i < b.nx / 2) (hj : j < b.ny / 2) (hpos : 0 < G.area (quad b i j)) :
    let r := a.nx / b.nx
    conserveInterp (a.nx / 2) (b.nx / 2) (readAll garea (b.nx / 2) (b.ny / 2) f) src (j * (b.nx / 2) + i) =
      total (fun p : Nat × Nat => src (p.2 * (a.nx / 2) + p.1)) (block r i j) / (r ^ 2 : Nat) ∧
    total (fun c => c.area) (overlap i j (readAll garea (b.nx / 2) (b.ny / 2) f)) = (r ^ 2 : Nat) * G.area (quad b i j) := by
  obtain ⟨h1, h2, hin, hp⟩ := C136_coarse_partial G eps o2 n a b f h hab garea hg
  obtain ⟨r', h0, _, _, hr, _⟩ := made_coarse h hab garea hg
  have hr1 : 1 < a.nx / b.nx := by rw [← hr]; exact h0
  simp only
  have hp' := hp i j hi hj
  set r := a.nx / b.nx with hrr
  set cells := readAll garea (b.nx / 2) (b.ny / 2) f with hcells
  set A := G.area (quad b i j) with hA
  have e1 : total (fun c => c.area) (overlap i j cells) = (r ^ 2 : Nat) * A := by
    unfold total
    rw [(hp'.map _).sum_eq]
    rw [List.map_map]
    have : ((block r i j).map ((fun c : XCell K => c.area) ∘ fun p => (⟨n, p.1, p.2, i, j, A, 0, 0⟩ : XCell K))) =
        List.replicate (r ^ 2) A := by
      rw [List.eq_replicate_iff]
      constructor
      · rw [List.length_map, length_block]
      · intro x hx
        simp only [List.mem_map, Function.comp_apply] at hx
        obtain ⟨_, _, rfl⟩ := hx
        rfl
    rw [this, List.sum_replicate, nsmul_eq_mul]
  refine ⟨?_, e1⟩
  have hne : overlap i j cells ≠ [] := by
    intro he
    rw [he] at hp'
    have := hp'.length_eq
    rw [List.length_nil, List.length_map, length_block] at this
    have h3 : 0 < r ^ 2 := Nat.pow_pos (by omega)
    omega
  rw [C27_mean _ _ _ _ _ hin i j hi, if_neg hne]
  unfold wmean
  rw [e1]
  have e2 : total (fun c => src (c.j1 * (a.nx / 2) + c.i1) * c.area) (overlap i j cells) =
      total (fun p : Nat × Nat => src (p.2 * (a.nx / 2) + p.1)) (block r i j) * A := by
    unfold total
    rw [(hp'.map _).sum_eq, List.map_map, ← List.sum_map_mul_right]
    rfl
  rw [e2]
  have hq : ((r ^ 2 : Nat) : K) ≠ 0 := by
    have : 0 < r ^ 2 := Nat.pow_pos (by omega)
    exact_mod_cast (by omega : r ^ 2 ≠ 0)
  have hz := ne_of_gt hpos
  field_simp

/-- C136. The corners of the coarse grid are corners of the fine grid, within the tolerance; grids that do not fit are refused. -/
theorem C136_corners (eps : K) (o2 : Bool) (n : Nat) (a b : Grid K) (f : List (RemapRec K)) (h : Made G eps o2 n a b f) :
    (a.nx ≤ b.nx → ∀ i j, i ≤ a.nx / 2 → j ≤ a.ny / 2 →
      |a.x i j - b.x (i * (b.nx / a.nx)) (j * (b.nx / a.nx))| ≤ eps ∧ |a.y i j - b.y (i * (b.nx / a.nx)) (j * (b.nx / a.nx))| ≤ eps) ∧
    (b.nx < a.nx → ∀ i j, i ≤ b.nx / 2 → j ≤ b.ny / 2 →
      |b.x i j - a.x (i * (a.nx / b.nx)) (j * (a.nx / b.nx))| ≤ eps ∧ |b.y i j - a.y (i * (a.nx / b.nx)) (j * (a.nx / b.nx))| ≤ eps) := by
  have key : ∀ (g g' : Grid K) (r : Nat), corners eps g g' r = true → ∀ i j, i ≤ g.nx / 2 → j ≤ g.ny / 2 →
      |g.x i j - g'.x (i * r) (j * r)| ≤ eps ∧ |g.y i j - g'.y (i * r) (j * r)| ≤ eps := by
    intro g g' r hc i j hi hj
    unfold corners at hc
    rw [List.all_eq_true] at hc
    have h1 := hc j (by rw [List.mem_range]; omega)
    rw [List.all_eq_true] at h1
    have h2 := h1 i (by rw [List.mem_range]; omega)
    simpa using h2
  constructor
  · intro hab
    obtain ⟨r, _, _, _, _, _, hr, hc, _⟩ := made_fine h hab 1 one_ne_zero
    rw [← hr]
    exact key a b r hc
  · intro hab
    obtain ⟨r, _, _, _, hr, hc, _⟩ := made_coarse h hab 1 one_ne_zero
    rw [← hr]
    exact key b a r hc

/-! ### All tiles -/

/-- Two tiles fit: even sizes other than 0, one integer ratio, and the corners agree. -/
def Fits (eps : K) (a b : Grid K) : Prop :=
  (a.nx % 2 = 0 ∧ a.ny % 2 = 0 ∧ b.nx % 2 = 0 ∧ b.ny % 2 = 0) ∧ (0 < a.nx ∧ 0 < a.ny ∧ 0 < b.nx ∧ 0 < b.ny) ∧
  ((∃ r, b.nx = r * a.nx ∧ b.ny = r * a.ny ∧ ∀ i j, i ≤ a.nx / 2 → j ≤ a.ny / 2 →
      |a.x i j - b.x (i * r) (j * r)| ≤ eps ∧ |a.y i j - b.y (i * r) (j * r)| ≤ eps) ∨
   (∃ r, a.nx = r * b.nx ∧ a.ny = r * b.ny ∧ ∀ i j, i ≤ b.nx / 2 → j ≤ b.ny / 2 →
      |b.x i j - a.x (i * r) (j * r)| ≤ eps ∧ |b.y i j - a.y (i * r) (j * r)| ≤ eps))

namespace MakeRemap

omit [IsStrictOrderedRing K] in
theorem corners_of {eps : K} {g g' : Grid K} {r : Nat} (h : ∀ i j, i ≤ g.nx / 2 → j ≤ g.ny / 2 →
    |g.x i j - g'.x (i * r) (j * r)| ≤ eps ∧ |g.y i j - g'.y (i * r) (j * r)| ≤ eps) : corners eps g g' r = true := by
  unfold corners
  rw [List.all_eq_true]
  intro j hj
  rw [List.all_eq_true]
  intro i hi
  rw [List.mem_range] at hi hj
  have := h i j (by omega) (by omega)
  simpa using this

theorem fits_ratio {eps : K} {a b : Grid K} (h : Fits eps a b) : ∃ d, ratio eps a b = .ok d := by
  obtain ⟨_, hp, h | h⟩ := h
  · obtain ⟨r, h1, h2, hc⟩ := h
    unfold ratio
    rw [if_neg (by omega), if_pos (by rw [h1, h2]; simp)]
    have e1 : b.nx / a.nx = r := by rw [h1, Nat.mul_div_cancel _ hp.1]
    have e2 : b.ny / a.ny = r := by rw [h2, Nat.mul_div_cancel _ hp.2.1]
    rw [e1, e2, if_neg (by simp), if_pos (corners_of hc)]
    exact ⟨_, rfl⟩
  · obtain ⟨r, h1, h2, hc⟩ := h
    have e1 : a.nx / b.nx = r := by rw [h1, Nat.mul_div_cancel _ hp.2.2.1]
    have e2 : a.ny / b.ny = r := by rw [h2, Nat.mul_div_cancel _ hp.2.2.2]
    unfold ratio
    rw [if_neg (by omega)]
    by_cases h3 : b.nx % a.nx = 0 ∧ b.ny % a.ny = 0
    · have l1 := Nat.le_of_dvd hp.2.2.1 (Nat.dvd_of_mod_eq_zero h3.1)
      have hr0 : 0 < r := by
        rcases Nat.eq_zero_or_pos r with h0 | h0
        · rw [h0] at h1; omega
        · exact h0
      have hr1 : r = 1 := by
        by_contra hne
        have : 2 * b.nx ≤ r * b.nx := Nat.mul_le_mul_right _ (by omega)
        omega
      subst hr1
      rw [one_mul] at h1 h2
      rw [if_pos h3, h1, h2, Nat.div_self hp.2.2.1, Nat.div_self hp.2.2.2, if_neg (by simp), if_pos]
      · exact ⟨_, rfl⟩
      · apply corners_of
        intro i j hi hj
        have := hc i j (by omega) (by omega)
        rw [mul_one, mul_one] at this ⊢
        rw [abs_sub_comm, abs_sub_comm (a.y i j)]
        exact this
    · rw [if_neg h3, if_pos (by rw [h1, h2]; simp), e1, e2, if_neg (by simp), if_pos (corners_of hc)]
      exact ⟨_, rfl⟩

theorem ratio_fits {eps : K} {a b : Grid K} {d : Bool × Nat} (he : a.nx % 2 = 0 ∧ a.ny % 2 = 0 ∧ b.nx % 2 = 0 ∧ b.ny % 2 = 0)
    (h : ratio eps a b = .ok d) : Fits eps a b := by
  have key : ∀ (g g' : Grid K) (r : Nat), corners eps g g' r = true → ∀ i j, i ≤ g.nx / 2 → j ≤ g.ny / 2 →
      |g.x i j - g'.x (i * r) (j * r)| ≤ eps ∧ |g.y i j - g'.y (i * r) (j * r)| ≤ eps := by
    intro g g' r hc i j hi hj
    unfold corners at hc
    rw [List.all_eq_true] at hc
    have h1 := hc j (by rw [List.mem_range]; omega)
    rw [List.all_eq_true] at h1
    have h2 := h1 i (by rw [List.mem_range]; omega)
    simpa using h2
  obtain ⟨d, r⟩ := d
  cases d
  · obtain ⟨h1, h2, h3, h4, h5, h6⟩ := ratio_coarse h
    refine ⟨he, ⟨?_, ?_, h5, h6⟩, .inr ⟨r, h1, h2, key b a r h4⟩⟩
    · rw [h1]; exact Nat.mul_pos (by omega) h5
    · rw [h2]; exact Nat.mul_pos (by omega) h6
  · obtain ⟨h1, h2, h3, h4, h5, h6⟩ := ratio_fine h
    refine ⟨he, ⟨h5, h6, ?_, ?_⟩, .inl ⟨r, h1, h2, key a b r h4⟩⟩
    · rw [h1]; exact Nat.mul_pos h3 h5
    · rw [h2]; exact Nat.mul_pos h3 h6

theorem cellsOf_ok {eps : K} {o2 : Bool} {n : Nat} {a b : Grid K} (h : Fits eps a b) :
    ∃ c, cellsOf G eps o2 n a b = .ok c ∧ c.length = max (a.nx / 2) (b.nx / 2) * max (a.ny / 2) (b.ny / 2) := by
  obtain ⟨⟨d, r⟩, hd⟩ := fits_ratio h
  unfold cellsOf
  rw [hd]
  cases d
  · obtain ⟨h1, h2, h3, h4, h5, h6⟩ := ratio_coarse hd
    have hx := half_mul h1 h.1.2.2.1
    have hy := half_mul h2 h.1.2.2.2
    refine ⟨_, rfl, ?_⟩
    unfold coarse
    rw [List.length_map, length_positions, ← hx, ← hy]
    have l1 : b.nx / 2 * 1 ≤ b.nx / 2 * r := Nat.mul_le_mul_left _ (by omega)
    have l2 : b.ny / 2 * 1 ≤ b.ny / 2 * r := Nat.mul_le_mul_left _ (by omega)
    rw [Nat.max_eq_left (by omega), Nat.max_eq_left (by omega)]
  · obtain ⟨h1, h2, h3, h4, h5, h6⟩ := ratio_fine hd
    have hx := half_mul h1 h.1.1
    have hy := half_mul h2 h.1.2.1
    refine ⟨_, rfl, ?_⟩
    unfold fine
    rw [List.length_map, length_positions, ← hx, ← hy]
    have l1 : a.nx / 2 * 1 ≤ a.nx / 2 * r := Nat.mul_le_mul_left _ (by omega)
    have l2 : a.ny / 2 * 1 ≤ a.ny / 2 * r := Nat.mul_le_mul_left _ (by omega)
    rw [Nat.max_eq_right (by omega), Nat.max_eq_right (by omega)]

/-- The state left by tiles of one size. -/
def uniform (nx ny mx my : Nat) : State :=
  ⟨nx, ny, mx, my, (mx / 2 + 1) * (my / 2 + 1), (mx + 1) * (my + 1), max (nx / 2) (mx / 2) * max (ny / 2) (my / 2)⟩

theorem step_ok {eps : K} {o2 : Bool} {n : Nat} {a b : Grid K} (h : Fits eps a b) {s : Option State}
    (hs : s = none ∨ s = some (uniform a.nx a.ny b.nx b.ny)) :
    ∃ c, step G eps o2 n s a b = .ok (uniform a.nx a.ny b.nx b.ny, c) := by
  obtain ⟨c, hc, hl⟩ := cellsOf_ok G (o2 := o2) (n := n) h
  have o1 : odd a = false := by unfold odd; simp [h.1.1, h.1.2.1]
  have o2' : odd b = false := by unfold odd; simp [h.1.2.2.1, h.1.2.2.2]
  refine ⟨c, ?_⟩
  unfold step
  rw [o1, o2', hc]
  rcases hs with rfl | rfl
  · simp [otherIn, otherOut, kept, uniform, hl]
  · simp [otherIn, otherOut, kept, uniform, hl]

theorem tiles_ok {eps : K} {o2 : Bool} {nx ny mx my : Nat} : ∀ {l : List (Grid K × Grid K)} {n : Nat} {s : Option State},
    (s = none ∨ s = some (uniform nx ny mx my)) →
    (∀ t ∈ l, Fits eps t.1 t.2 ∧ t.1.nx = nx ∧ t.1.ny = ny ∧ t.2.nx = mx ∧ t.2.ny = my) →
    ∃ cs, tiles G eps o2 n s l = .ok cs := by
  intro l
  induction l with
  | nil => intro n s _ _; exact ⟨[], rfl⟩
  | cons t l ih =>
    intro n s hs hl
    obtain ⟨hf, e1, e2, e3, e4⟩ := hl t List.mem_cons_self
    obtain ⟨c, hc⟩ := step_ok G (o2 := o2) (n := n) hf (s := s) (by rw [e1, e2, e3, e4]; exact hs)
    obtain ⟨cs, hcs⟩ := ih (n := n + 1) (s := some (uniform nx ny mx my)) (.inr rfl) fun u hu => hl u (List.mem_cons_of_mem _ hu)
    refine ⟨c :: cs, ?_⟩
    unfold tiles
    rw [hc, e1, e2, e3, e4]
    simp only
    rw [hcs]

end MakeRemap

/-- C136. Mosaics with tiles of one size whose tiles fit are accepted and every tile gets a file. -/
theorem C136_accepts (eps : K) (o2 : Bool) (gin gout : List (Grid K)) (hl : gin.length = gout.length) (h6 : o2 = true → gin.length = 6)
    (nx ny mx my : Nat) (hfit : ∀ (n : Nat) a b, gin[n]? = some a → gout[n]? = some b →
      Fits eps a b ∧ a.nx = nx ∧ a.ny = ny ∧ b.nx = mx ∧ b.ny = my) :
    ∃ files, main G eps o2 gin gout = .ok files ∧ files.length = gin.length := by
  obtain ⟨cs, hcs⟩ := tiles_ok G (eps := eps) (o2 := o2) (nx := nx) (ny := ny) (mx := mx) (my := my) (l := gin.zip gout) (n := 0) (.inl rfl) (by
    intro t ht
    obtain ⟨n, hn⟩ := List.mem_iff_getElem?.1 ht
    rw [List.getElem?_zip_eq_some] at hn
    exact hfit n t.1 t.2 hn.1 hn.2)
  refine ⟨cs.map fun c => c.map record, ?_, ?_⟩
  · unfold main
    rw [if_neg (by simpa using hl), if_neg (by intro h; exact h.1 (h6 h.2)), hcs]
  · rw [List.length_map, (tiles_get G hcs).1, List.length_zip, ← hl, Nat.min_self]

theorem step_ok {eps : K} {o2 : Bool} {n : Nat} {s : Option State} {a b : Grid K} {s' : State} {c : List (XCell K)} (hs : MakeRemap.step G eps o2 n s a b = .ok (s', c)) :
    otherIn s a = false ∧ s'.nxIn = a.nx ∧ s'.nyIn = a.ny ∧ s'.lenOut = kept s State.lenOut ((b.nx / 2 + 1) * (b.ny / 2 + 1)) ∧
      s'.lenSuper = kept s State.lenSuper ((b.nx + 1) * (b.ny + 1)) ∧ (b.nx / 2 + 1) * (b.ny / 2 + 1) ≤ s'.lenOut ∧ (b.nx + 1) * (b.ny + 1) ≤ s'.lenSuper := by
  unfold MakeRemap.step at hs
  by_cases h1 : odd a = true
  · simp [h1] at hs
  rw [if_neg h1] at hs
  by_cases h3 : otherIn s a = true
  · simp [h3] at hs
  rw [if_neg h3] at hs
  by_cases h2 : odd b = true
  · simp [h2] at hs
  rw [if_neg h2] at hs
  by_cases h4 : otherOut n s b = true
  · simp [h4] at hs
  rw [if_neg h4] at hs
  simp only at hs
  by_cases h5 : kept s State.lenOut ((b.nx / 2 + 1) * (b.ny / 2 + 1)) < (b.nx / 2 + 1) * (b.ny / 2 + 1) ∨ kept s State.lenSuper ((b.nx + 1) * (b.ny + 1)) < (b.nx + 1) * (b.ny + 1)
  · simp [h5] at hs
  rw [if_neg h5] at hs
  generalize cellsOf G eps o2 n a b = z at hs
  cases z with
  | error e => simp at hs
  | ok z =>
    simp only at hs
    split at hs
    · simp at hs
    · simp only [Except.ok.injEq, Prod.mk.injEq] at hs
      rw [← hs.1]
      push Not at h5
      exact ⟨by simpa using h3, rfl, rfl, rfl, rfl, h5.1, h5.2⟩

theorem tiles_sizes {eps : K} {o2 : Bool} : ∀ {l : List (Grid K × Grid K)} {n : Nat} {s : State} {cs : List (List (XCell K))},
    tiles G eps o2 n (some s) l = .ok cs → ∀ t ∈ l, t.1.nx = s.nxIn ∧ t.1.ny = s.nyIn ∧ (t.2.nx / 2 + 1) * (t.2.ny / 2 + 1) ≤ s.lenOut ∧
      (t.2.nx + 1) * (t.2.ny + 1) ≤ s.lenSuper := by
  intro l
  induction l with
  | nil => intro n s cs _ t ht; simp at ht
  | cons u l ih =>
    intro n s cs h t ht
    simp only [tiles] at h
    generalize hs : MakeRemap.step G eps o2 n (some s) u.1 u.2 = x at h
    cases x with
    | error e => simp at h
    | ok x =>
      obtain ⟨s', c⟩ := x
      simp only at h
      obtain ⟨k1, k2, k3, k4, k5, k6, k7⟩ := step_ok G hs
      simp only [otherIn, decide_eq_false_iff_not, not_or, not_not] at k1
      simp only [kept] at k4 k5
      rw [k4] at k6
      rw [k5] at k7
      rcases List.mem_cons.1 ht with rfl | ht
      · exact ⟨k1.1, k1.2, k6, k7⟩
      · generalize hr : MakeRemap.tiles G eps o2 (n + 1) (some s') l = y at h
        cases y with
        | error e => simp at h
        | ok rest =>
          have := ih hr t ht
          rw [k2, k3, k4, k5, k1.1, k1.2] at this
          exact this

/-- C136: all input tiles have the size of the first one, and no output tile has more points than the arrays, which come from the first one. -/
theorem C136_sizes (eps : K) (o2 : Bool) (gin gout : List (Grid K)) (files : List (List (RemapRec K))) (h : main G eps o2 gin gout = .ok files)
    (n : Nat) (a0 b0 a b : Grid K) (ha0 : gin[0]? = some a0) (hb0 : gout[0]? = some b0) (ha : gin[n]? = some a) (hb : gout[n]? = some b) :
    a.nx = a0.nx ∧ a.ny = a0.ny ∧ (b.nx / 2 + 1) * (b.ny / 2 + 1) ≤ (b0.nx / 2 + 1) * (b0.ny / 2 + 1) ∧ (b.nx + 1) * (b.ny + 1) ≤ (b0.nx + 1) * (b0.ny + 1) := by
  cases n with
  | zero =>
    rw [ha0] at ha
    rw [hb0] at hb
    rw [← Option.some.inj ha, ← Option.some.inj hb]
    exact ⟨rfl, rfl, le_refl _, le_refl _⟩
  | succ n =>
    unfold main at h
    by_cases h1 : gin.length ≠ gout.length
    · simp [h1] at h
    rw [if_neg h1] at h
    by_cases h2 : gin.length ≠ 6 ∧ o2 = true
    · simp [h2] at h
    rw [if_neg h2] at h
    cases gin with
    | nil => simp at ha0
    | cons x gin =>
      cases gout with
      | nil => simp at hb0
      | cons y gout =>
        simp only [List.getElem?_cons_zero, Option.some.injEq] at ha0 hb0
        subst ha0 hb0
        rw [List.getElem?_cons_succ] at ha hb
        rw [List.zip_cons_cons, tiles] at h
        generalize hs : MakeRemap.step G eps o2 0 none x y = z at h
        cases z with
        | error e => simp at h
        | ok z =>
          obtain ⟨s', c⟩ := z
          simp only at h
          obtain ⟨_, k2, k3, k4, k5, _, _⟩ := step_ok G hs
          simp only [kept] at k4 k5
          generalize hr : tiles G eps o2 (0 + 1) (some s') (gin.zip gout) = r at h
          cases r with
          | error e => simp at h
          | ok rest =>
            have := tiles_sizes G hr (a, b) (List.mem_of_getElem? (by rw [List.getElem?_zip_eq_some]; exact ⟨ha, hb⟩))
            rw [k2, k3, k4, k5] at this
            exact this

/-- C136. What is accepted fits, tile by tile. -/
theorem C136_refuses (eps : K) (o2 : Bool) (n : Nat) (a b : Grid K) (f : List (RemapRec K)) (h : Made G eps o2 n a b f) : Fits eps a b := by
  obtain ⟨he, h | h⟩ := made_cases h
  · obtain ⟨r, hr, _⟩ := h; exact ratio_fits he hr
  · obtain ⟨r, hr, _⟩ := h; exact ratio_fits he hr

/-! ### Concrete cases -/

/-- Plane geometry of rectangles. -/
def mrGeo : Geo ℚ where
  avg q := (q.p0.1 + q.p2.1) / 2
  area q := (q.p2.1 - q.p0.1) * (q.p2.2 - q.p0.2)
  ctrlon q m := ((q.p0.1 + q.p2.1) / 2 - m) * ((q.p2.1 - q.p0.1) * (q.p2.2 - q.p0.2))
  ctrlat q := (q.p0.2 + q.p2.2) / 2 * ((q.p2.1 - q.p0.1) * (q.p2.2 - q.p0.2))

/-- Two by two cells, the second column three times as wide as the first. -/
def mrFine : Grid ℚ := ⟨4, 4, fun i _ => if i = 0 then 0 else if i = 1 then 1 else 4, fun _ j => j⟩

/-- One cell. -/
def mrCoarse : Grid ℚ := ⟨2, 2, fun i _ => 4 * i, fun _ j => 2 * j⟩

/-- Three by three cells. -/
def mrLarge : Grid ℚ := ⟨6, 6, fun i _ => 4 * i / 3, fun _ j => 2 * j / 3⟩

theorem mr_fits_down : Fits (1 / 10 ^ 10) mrFine mrCoarse := by
  refine ⟨by decide, by decide, .inr ⟨2, rfl, rfl, ?_⟩⟩
  intro i j hi hj
  have hi' : i ≤ 1 := hi
  have hj' : j ≤ 1 := hj
  interval_cases i <;> interval_cases j <;> norm_num [mrFine, mrCoarse]

theorem mr_fits_up : Fits (1 / 10 ^ 10) mrCoarse mrFine := by
  refine ⟨by decide, by decide, .inl ⟨2, rfl, rfl, ?_⟩⟩
  intro i j hi hj
  have hi' : i ≤ 1 := hi
  have hj' : j ≤ 1 := hj
  interval_cases i <;> interval_cases j <;> norm_num [mrFine, mrCoarse]

/-- The hypotheses of the theorems for a finer output grid: a file is made from one cell to two by two cells of positive areas, for both orders. -/
theorem C136_fine_case : ∃ f, Made mrGeo (1 / 10 ^ 10) true 5 mrCoarse mrFine f ∧
    ∀ i j, i < mrFine.nx / 2 → j < mrFine.ny / 2 → 0 < mrGeo.area (quad mrFine i j) := by
  obtain ⟨files, hm, hl⟩ := C136_accepts mrGeo (1 / 10 ^ 10) true (List.replicate 6 mrCoarse) (List.replicate 6 mrFine) rfl (fun _ => rfl) 2 2 4 4 (by
    intro n a b ha hb
    have ha' := List.eq_of_mem_replicate (List.mem_of_getElem? ha)
    have hb' := List.eq_of_mem_replicate (List.mem_of_getElem? hb)
    subst ha' hb'
    exact ⟨mr_fits_up, rfl, rfl, rfl, rfl⟩)
  have h5 : 5 < files.length := by rw [hl]; decide
  refine ⟨files[5], ⟨⟨_, _, files, hm, rfl, rfl, List.getElem?_eq_getElem h5⟩⟩, ?_⟩
  intro i j hi hj
  have hi' : i < 2 := hi
  have hj' : j < 2 := hj
  interval_cases i <;> interval_cases j <;> norm_num [mrFine, mrGeo, quad]

/-- C136, input grid finer. The result is wrong when the areas of the input cells differ: with value 1 in the narrow column and 0 in the wide one, the mean over the output
cell is 1/4, and fregrid gets 1/2 from the file: the integral is not kept. The exchange area of the output cell is four times its own. -/
theorem C136_coarse_area_wrong : ∃ f, Made mrGeo (1 / 10 ^ 10) false 0 mrFine mrCoarse f ∧
    blockMean mrGeo mrFine 2 0 0 (fun i _ => if i = 0 then 1 else 0) = 1 / 4 ∧
    conserveInterp 2 1 (readAll 1 1 1 f) (fun k => if k % 2 = 0 then 1 else 0) 0 = 1 / 2 ∧
    mrGeo.area (quad mrCoarse 0 0) = 8 ∧ total (fun p => mrGeo.area (quad mrFine p.1 p.2)) (block 2 0 0) = 8 ∧
    total (fun c => c.area) (overlap 0 0 (readAll 1 1 1 f)) = 32 := by
  obtain ⟨files, hm, hl⟩ := C136_accepts mrGeo (1 / 10 ^ 10) false [mrFine] [mrCoarse] rfl (by simp) 4 4 2 2 (by
    intro n a b ha hb
    have ha' := List.mem_of_getElem? ha
    have hb' := List.mem_of_getElem? hb
    rw [List.mem_singleton] at ha' hb'
    subst ha' hb'
    exact ⟨mr_fits_down, rfl, rfl, rfl, rfl⟩)
  have h0 : 0 < files.length := by rw [hl]; decide
  have hmade : Made mrGeo (1 / 10 ^ 10) false 0 mrFine mrCoarse files[0] := ⟨⟨_, _, files, hm, rfl, rfl, List.getElem?_eq_getElem h0⟩⟩
  have hA : mrGeo.area (quad mrCoarse 0 0) = 8 := by norm_num [mrGeo, quad, mrCoarse]
  obtain ⟨h1, h2⟩ := C136_coarse_value_partial mrGeo (1 / 10 ^ 10) false 0 mrFine mrCoarse files[0] hmade (by decide) 1 one_ne_zero
    (fun k => if k % 2 = 0 then 1 else 0) 0 0 (by decide) (by decide) (by rw [hA]; norm_num)
  refine ⟨files[0], hmade, ?_, ?_, hA, ?_, ?_⟩
  · simp only [blockMean, wmean, total, block, List.range_succ, List.range_zero]
    norm_num [mrGeo, quad, mrFine]
  · refine Eq.trans h1 ?_
    simp only [mrFine, mrCoarse, total, block, List.range_succ, List.range_zero]
    norm_num [List.range_succ]
  · simp only [total, block, List.range_succ, List.range_zero]
    norm_num [mrGeo, quad, mrFine]
  · refine Eq.trans h2 ?_
    rw [hA]
    norm_num [mrFine, mrCoarse]

/-- C136. The size of the second output tile is not compared with that of the first: a larger one is read into the arrays of the first. For the third tile the
program refuses such a grid. -/
theorem C136_second_tile_wrong :
    Fits (1 / 10 ^ 10) mrCoarse mrLarge ∧ mrCoarse.nx ≠ mrLarge.nx ∧
    (match main mrGeo (1 / 10 ^ 10) false [mrCoarse, mrCoarse] [mrCoarse, mrLarge] with | .error e => decide (e = .undefined) | .ok _ => false) = true ∧
    (match main mrGeo (1 / 10 ^ 10) false [mrCoarse, mrCoarse, mrCoarse] [mrCoarse, mrCoarse, mrLarge] with
      | .error e => decide (e = .refused) | .ok _ => false) = true := by
  refine ⟨?_, by decide, by decide +kernel, by decide +kernel⟩
  refine ⟨by decide, by decide, .inl ⟨3, rfl, rfl, ?_⟩⟩
  intro i j hi hj
  have hi' : i ≤ 1 := hi
  have hj' : j ≤ 1 := hj
  interval_cases i <;> interval_cases j <;> norm_num [mrLarge, mrCoarse]

/-! ### Names -/

/-- C136. fregrid looks for the files under the names made here exactly if the tiles of its output mosaic are called `tile1`, `tile2` and so on, or there is only one. -/
theorem C136_names {G' B D W : Type} (c : Grids G' B D W) (g : G') (name : Name) (l l' : List Name)
    (h : fileNames (c.tiles g).length name = .ok l) (h' : names c g name = .ok l') :
    l = l' ↔ ((c.tiles g).length ≤ 1 ∨ ∀ (k : Nat) (t : Name), (c.tiles g)[k]? = some t → t = "tile".toList ++ (toString (k + 1)).toList) := by
  unfold fileNames at h
  unfold names at h'
  generalize stem name = x at h h'
  cases x with
  | error e => simp at h
  | ok s =>
    simp only at h h'
    generalize c.tiles g = ts at h h' ⊢
    by_cases h1 : 1 < ts.length
    · simp only [h1, if_true] at h h'
      split at h
      · simp at h
      split at h'
      · simp at h'
      simp only [Except.ok.injEq] at h h'
      subst h h'
      constructor
      · intro he
        right
        intro k t hk
        have hk' : k < ts.length := by
          by_contra hc
          rw [List.getElem?_eq_none (by omega)] at hk
          cases hk
        have hg := congrArg (fun m : List Name => m[k]?) he
        simp only [List.getElem?_map, hk, List.getElem?_range hk', Option.map_some, Option.some.injEq] at hg
        have e2 : ".nc".toList = ['.', 'n', 'c'] := rfl
        have e3 : ".tile".toList = '.' :: "tile".toList := rfl
        rw [e2, e3] at hg
        simp only [List.append_assoc, List.cons_append, List.append_cancel_left_eq, List.cons.injEq, true_and] at hg
        rw [← List.append_assoc] at hg
        exact (List.append_cancel_right hg).symm
      · rintro (hc | hc)
        · omega
        · apply List.ext_getElem?
          intro k
          simp only [List.getElem?_map]
          by_cases hk : k < ts.length
          · rw [List.getElem?_range hk, List.getElem?_eq_getElem hk]
            have := hc k _ (List.getElem?_eq_getElem hk)
            simp only [Option.map_some]
            rw [this]
            have e2 : ".nc".toList = ['.', 'n', 'c'] := rfl
            have e3 : ".tile".toList = '.' :: "tile".toList := rfl
            rw [e2, e3]
            simp
          · rw [List.getElem?_eq_none (by simpa using hk), List.getElem?_eq_none (by simpa using hk)]
            rfl
    · simp only [h1, if_false] at h h'
      split at h
      · simp at h
      split at h'
      · simp at h'
      simp only [Except.ok.injEq] at h h'
      subst h h'
      constructor
      · intro _; left; omega
      · intro _
        rw [List.map_const', List.map_const', List.length_range]
        rfl

/-- Names for two tiles called `tile1` and `tile2`, and for tiles called otherwise. -/
def mrNames (l : List String) : Grids Unit Unit Unit Unit := ⟨fun _ => l.map String.toList, fun _ _ => [], fun _ _ => [], fun _ => (), fun _ => (0, 0)⟩

example : fileNames 2 "remap.nc".toList = .ok ["remap.tile1.nc".toList, "remap.tile2.nc".toList] := by decide +kernel
example : names (mrNames ["tile1", "tile2"]) () "remap.nc".toList = .ok ["remap.tile1.nc".toList, "remap.tile2.nc".toList] := by decide +kernel
example : names (mrNames ["a", "b"]) () "remap.nc".toList = .ok ["remap.a.nc".toList, "remap.b.nc".toList] := by decide +kernel

end Verif
