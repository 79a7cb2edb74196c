import Verif.Spec.GpuXgrid
import Verif.Lemmas.RowRange
import Mathlib.Algebra.BigOperators.Group.List.Basic
/-
Lemmas about the exchange grid of fregrid_gpu.
-/
namespace Verif.GpuXgrid
open Verif.Spec

variable {β : Type} (g : Job β)

/-- The number of target cells near source cell `ij1`. -/
def nearCount (ij1 : Nat) : Nat := ((List.range g.n2).filter (g.near ij1)).length

/-- `approx` as it should be. -/
def A (ij1 : Nat) : Nat := if active g ij1 then nearCount g ij1 else 0

/-- The exchange cells of a source cell. -/
def W (ij1 : Nat) : List (Rec β) :=
  if active g ij1 then
    (List.range g.n2).filterMap fun ij2 => if g.near ij1 ij2 then (g.clip ij1 ij2).map (Rec.mk ij1 ij2) else none
  else []

/-- Sums over the source cells before `k`. -/
def P (f : Nat → Nat) (k : Nat) : Nat := ((List.range k).map f).sum

theorem P_succ (f : Nat → Nat) (k : Nat) : P f (k + 1) = P f k + f k := by
  simp [P, List.range_succ]

theorem P_mono (f : Nat → Nat) {k l : Nat} (h : k ≤ l) : P f k ≤ P f l := by
  induction h with
  | refl => exact le_refl _
  | step _ ih => rw [P_succ]; omega

theorem W_length_le (ij1 : Nat) : (W g ij1).length ≤ A g ij1 := by
  unfold W A nearCount
  split
  · have h : ∀ l : List Nat,
        (l.filterMap fun ij2 => if g.near ij1 ij2 then (g.clip ij1 ij2).map (Rec.mk ij1 ij2) else none).length ≤
          (l.filter (g.near ij1)).length := by
      intro l
      induction l with
      | nil => simp
      | cons a l ih =>
        simp only [List.filterMap_cons, List.filter_cons]
        by_cases hn : g.near ij1 a = true
        · rw [if_pos hn, if_pos hn]
          rcases g.clip ij1 a with _ | v
          · simp only [Option.map_none, List.length_cons]; omega
          · simp only [Option.map_some, List.length_cons]; omega
        · rw [if_neg hn, if_neg hn]; exact ih
    exact h _
  · simp

/-! ### Upper bounds -/

theorem foldl_count {α : Type} : ∀ (l : List α) (c : Int), l.foldl (fun c _ => c + 1) c = c + l.length
  | [], c => by simp
  | a :: l, c => by simp only [List.foldl_cons, foldl_count l, List.length_cons]; push_cast; omega

theorem foldl_minInt : ∀ (l : List Nat) (m : Int),
    l.foldl (fun m (k : Nat) => min m (k : Int)) m ≤ m ∧
      (∀ k ∈ l, l.foldl (fun m (k : Nat) => min m (k : Int)) m ≤ (k : Int)) ∧
      (0 ≤ m → 0 ≤ l.foldl (fun m (k : Nat) => min m (k : Int)) m) ∧
      (l = [] → l.foldl (fun m (k : Nat) => min m (k : Int)) m = m)
  | [], m => by simp
  | a :: l, m => by
    obtain ⟨h1, h2, h3, _⟩ := foldl_minInt l (min m (a : Int))
    simp only [List.foldl_cons]
    refine ⟨h1.trans (min_le_left _ _), ?_, fun hm => h3 (by omega), by simp⟩
    intro k hk
    rcases List.mem_cons.1 hk with rfl | hk
    · exact h1.trans (min_le_right _ _)
    · exact h2 k hk

theorem foldl_maxInt : ∀ (l : List Nat) (m : Int),
    m ≤ l.foldl (fun m (k : Nat) => max m (k : Int)) m ∧
      (∀ k ∈ l, (k : Int) ≤ l.foldl (fun m (k : Nat) => max m (k : Int)) m) ∧
      (∀ n : Int, m < n → (∀ k ∈ l, (k : Int) < n) → l.foldl (fun m (k : Nat) => max m (k : Int)) m < n) ∧
      (l = [] → l.foldl (fun m (k : Nat) => max m (k : Int)) m = m)
  | [], m => by simp
  | a :: l, m => by
    obtain ⟨h1, h2, h3, _⟩ := foldl_maxInt l (max m (a : Int))
    simp only [List.foldl_cons]
    refine ⟨(le_max_left _ _).trans h1, ?_, ?_, by simp⟩
    · intro k hk
      rcases List.mem_cons.1 hk with rfl | hk
      · exact (le_max_right _ _).trans h1
      · exact h2 k hk
    · intro n hn hl
      refine h3 n ?_ fun k hk => hl k (List.mem_cons_of_mem _ hk)
      have := hl a (by simp)
      omega

variable {g}

theorem upbound_spec {inner : Nat → List Nat} : ∀ (l : List Nat) (b0 : Bounds), l.Nodup →
    let b := l.foldl (upStep g inner) b0
    (∀ k, b.approx k = if k ∈ l ∧ g.mask k = true then ((((inner k).filter (g.near k)).length : Nat) : Int)
      else b0.approx k) ∧
    (∀ k, b.first k = if k ∈ l ∧ g.mask k = true then
      ((inner k).filter (g.near k)).foldl (fun m (ij2 : Nat) => min m (ij2 : Int)) (g.n2 : Int) else b0.first k) ∧
    (∀ k, b.last k = if k ∈ l ∧ g.mask k = true then
      ((inner k).filter (g.near k)).foldl (fun m (ij2 : Nat) => max m (ij2 : Int)) (0 : Int) else b0.last k) ∧
    b.up = b0.up + (((l.map fun k => if g.mask k = true then ((inner k).filter (g.near k)).length else 0).sum : Nat) : Int)
  | [], b0, _ => by simp
  | a :: l, b0, hl => by
    intro b
    obtain ⟨ha, hl⟩ := List.nodup_cons.1 hl
    obtain ⟨h1, h2, h3, h4⟩ := upbound_spec (inner := inner) l (upStep g inner b0 a) hl
    have hb : b = l.foldl (upStep g inner) (upStep g inner b0 a) := rfl
    rw [← hb] at h1 h2 h3 h4
    clear_value b
    by_cases hm : g.mask a = true
    · have hs : upStep g inner b0 a =
        { approx := upd b0.approx a (((inner a).filter (g.near a)).foldl (fun c _ => c + 1) (0 : Int))
          first := upd b0.first a (((inner a).filter (g.near a)).foldl (fun m (ij2 : Nat) => min m (ij2 : Int)) (g.n2 : Int))
          last := upd b0.last a (((inner a).filter (g.near a)).foldl (fun m (ij2 : Nat) => max m (ij2 : Int)) (0 : Int))
          up := ((inner a).filter (g.near a)).foldl (fun c _ => c + 1) b0.up } := by
        unfold upStep; rw [if_pos hm]
      rw [hs] at h1 h2 h3 h4
      dsimp only at h1 h2 h3 h4
      rw [foldl_count] at h4
      rw [foldl_count] at h1
      refine ⟨?_, ?_, ?_, ?_⟩
      · intro k
        rw [h1]
        by_cases hk : k = a
        · subst hk
          rw [if_neg (fun h => ha h.1), if_pos ⟨by simp, hm⟩]
          simp [upd]
        · simp [upd, hk]
      · intro k
        rw [h2]
        by_cases hk : k = a
        · subst hk
          rw [if_neg (fun h => ha h.1), if_pos ⟨by simp, hm⟩]
          simp [upd]
        · simp [upd, hk]
      · intro k
        rw [h3]
        by_cases hk : k = a
        · subst hk
          rw [if_neg (fun h => ha h.1), if_pos ⟨by simp, hm⟩]
          simp [upd]
        · simp [upd, hk]
      · rw [h4, List.map_cons, List.sum_cons, if_pos hm]
        push_cast
        omega
    · have hs : upStep g inner b0 a = b0 := by unfold upStep; rw [if_neg hm]
      rw [hs] at h1 h2 h3 h4
      refine ⟨?_, ?_, ?_, ?_⟩
      · intro k
        rw [h1]
        by_cases hk : k = a
        · subst hk
          rw [if_neg (fun h => ha h.1), if_neg (fun h => hm h.2)]
        · simp [hk]
      · intro k
        rw [h2]
        by_cases hk : k = a
        · subst hk
          rw [if_neg (fun h => ha h.1), if_neg (fun h => hm h.2)]
        · simp [hk]
      · intro k
        rw [h3]
        by_cases hk : k = a
        · subst hk
          rw [if_neg (fun h => ha h.1), if_neg (fun h => hm h.2)]
        · simp [hk]
      · rw [h4, List.map_cons, List.sum_cons, if_neg hm, Nat.zero_add]

theorem mem_active {k : Nat} : (k ∈ List.range' g.lo (g.hi - g.lo) ∧ g.mask k = true) ↔ active g k = true := by
  simp only [List.mem_range'_1, active, Bool.and_eq_true, decide_eq_true_eq]
  constructor
  · rintro ⟨⟨h1, h2⟩, h3⟩; exact ⟨⟨h1, by omega⟩, h3⟩
  · rintro ⟨⟨h1, h2⟩, h3⟩; exact ⟨⟨h1, by omega⟩, h3⟩

theorem filterMap_window {α : Type} (f : Nat → Option α) (a c n : Nat) (hle : a + c ≤ n ∨ c = 0)
    (h : ∀ j < n, j < a ∨ a + c ≤ j → f j = none) : (List.range' a c).filterMap f = (List.range n).filterMap f := by
  rcases hle with hle | rfl
  · obtain ⟨m, rfl⟩ := Nat.exists_eq_add_of_le hle
    rw [List.range_add, List.range_add, List.filterMap_append, List.filterMap_append]
    have e1 : (List.range a).filterMap f = [] := by
      rw [List.filterMap_eq_nil_iff]
      intro j hj
      exact h j (by have := List.mem_range.1 hj; omega) (.inl (List.mem_range.1 hj))
    have e2 : ((List.range m).map (fun x => a + c + x)).filterMap f = [] := by
      rw [List.filterMap_eq_nil_iff]
      intro j hj
      obtain ⟨x, hx, rfl⟩ := List.mem_map.1 hj
      have := List.mem_range.1 hx
      exact h _ (by omega) (.inr (by omega))
    rw [e1, e2, List.nil_append, List.append_nil, List.range_eq_range', List.map_add_range']
    rfl
  · symm
    simp only [List.range'_zero, List.filterMap_nil]
    rw [List.filterMap_eq_nil_iff]
    intro j hj
    exact h j (List.mem_range.1 hj) (by omega)

/-- All that is needed of the first loop. -/
structure BoundsOK (g : Job β) (b0 b : Bounds) : Prop where
  approx : ∀ k, b.approx k = if active g k = true then ((nearCount g k : Nat) : Int) else b0.approx k
  work : 0 < g.n2 → ∀ k, work g b k = W g k
  up : b.up = b0.up + ((P (A g) g.hi : Nat) : Int)

theorem boundsOK {pl : Plan} (hc : Complete g pl) (b0 : Bounds) : BoundsOK g b0 (upbound g pl.order pl.inner b0) := by
  have hnd : pl.order.Nodup := hc.order.nodup_iff.2 List.nodup_range'
  obtain ⟨h1, h2, h3, h4⟩ := upbound_spec (g := g) (inner := pl.inner) pl.order b0 hnd
  have hmem : ∀ k, (k ∈ pl.order ∧ g.mask k = true) ↔ active g k = true := by
    intro k; rw [hc.order.mem_iff]; exact mem_active
  have hlen : ∀ k, ((pl.inner k).filter (g.near k)).length = nearCount g k := by
    intro k; exact ((hc.inner k).filter _).length_eq
  refine ⟨?_, ?_, ?_⟩
  · intro k
    rw [show upbound g pl.order pl.inner b0 = pl.order.foldl (upStep g pl.inner) b0 from rfl, h1]
    simp only [hmem, hlen]
  · intro hn k
    unfold GpuXgrid.work W
    by_cases ha : active g k = true
    · rw [if_pos ha, if_pos ha]
      rw [show upbound g pl.order pl.inner b0 = pl.order.foldl (upStep g pl.inner) b0 from rfl, h2, h3,
        if_pos ((hmem k).2 ha), if_pos ((hmem k).2 ha)]
      obtain ⟨a1, a2, a3, a4⟩ := foldl_minInt ((pl.inner k).filter (g.near k)) (g.n2 : Int)
      obtain ⟨c1, c2, c3, c4⟩ := foldl_maxInt ((pl.inner k).filter (g.near k)) (0 : Int)
      have c3' := c3 (g.n2 : Int) (by omega) (by
        intro j hj
        have := (hc.inner k).mem_iff.1 (List.mem_filter.1 hj).1
        have := List.mem_range.1 this
        omega)
      have a3' := a3 (by omega)
      have hin : ∀ j, j < g.n2 → g.near k j = true → j ∈ (pl.inner k).filter (g.near k) := by
        intro j hj hne
        exact List.mem_filter.2 ⟨(hc.inner k).mem_iff.2 (List.mem_range.2 hj), hne⟩
      generalize ((pl.inner k).filter (g.near k)).foldl (fun m (ij2 : Nat) => min m (ij2 : Int)) (g.n2 : Int) = lo at *
      generalize ((pl.inner k).filter (g.near k)).foldl (fun m (ij2 : Nat) => max m (ij2 : Int)) (0 : Int) = hi at *
      apply filterMap_window
      · omega
      · intro j hj ho
        rw [if_neg]
        intro hne
        have d1 := a2 j (hin j hj hne)
        have d2 := c2 j (hin j hj hne)
        omega
    · rw [if_neg ha, if_neg ha]
  · rw [show upbound g pl.order pl.inner b0 = pl.order.foldl (upStep g pl.inner) b0 from rfl, h4]
    congr 2
    rw [(hc.order.map _).sum_eq]
    simp only [hlen]
    have e : ∀ m, ((List.range' g.lo (m - g.lo)).map fun k => if g.mask k = true then nearCount g k else 0).sum =
        ((List.range m).map fun k => if decide (g.lo ≤ k) && g.mask k then nearCount g k else 0).sum := by
      intro m
      induction m with
      | zero => simp
      | succ m ih =>
        rw [List.range_succ, List.map_append, List.sum_append, ← ih]
        by_cases h : g.lo ≤ m
        · rw [show m + 1 - g.lo = (m - g.lo) + 1 by omega, List.range'_concat, List.map_append, List.sum_append,
            show g.lo + 1 * (m - g.lo) = m by omega]
          simp [h]
        · rw [show m + 1 - g.lo = 0 by omega, show m - g.lo = 0 by omega]
          simp [h]
    rw [e]
    unfold P
    congr 1
    apply List.map_congr_left
    intro k hk
    have := List.mem_range.1 hk
    unfold A active
    simp [this]

/-! ### Search -/

theorem before_eq {a : Nat → Int} {f : Nat → Nat} {n : Nat} (h : ∀ k < n, a k = ((f k : Nat) : Int)) :
    ∀ k ≤ n, before a k = ((P f k : Nat) : Int)
  | 0, _ => by simp [before, P]
  | k + 1, hk => by
    have := before_eq h k (by omega)
    rw [P_succ]
    unfold before at this ⊢
    rw [List.range_succ, List.map_append, List.sum_append, this, List.map_singleton, List.sum_singleton, h k (by omega)]
    push_cast
    rfl

/-- Places of different source cells are different. -/
theorem P_disjoint {f : Nat → Nat} {a b i j : Nat} (hi : i < f a) (hj : j < f b) (h : P f a + i = P f b + j) :
    a = b ∧ i = j := by
  rcases Nat.lt_trichotomy a b with hab | rfl | hab
  · have := P_mono f (show a + 1 ≤ b by omega)
    rw [P_succ] at this
    omega
  · exact ⟨rfl, by omega⟩
  · have := P_mono f (show b + 1 ≤ a by omega)
    rw [P_succ] at this
    omega

/-- The state in the middle of the second loop. -/
structure Inv (g : Job β) (s : St β) : Prop where
  todo : ∀ k, s.todo k = (W g k).drop (s.ix k)
  le : ∀ k, s.ix k ≤ (W g k).length
  mem : ∀ k, ∀ i < s.ix k, s.mem (P (A g) k + i) = (W g k)[i]?

theorem active_lt {k : Nat} (h : active g k = true) : k < g.hi := by
  simp only [active, Bool.and_eq_true, decide_eq_true_eq] at h
  exact h.1.2

theorem step_inv {b : Bounds} (hb : ∀ k, active g k = true → before b.approx k = ((P (A g) k : Nat) : Int))
    (hu : b.up = ((P (A g) g.hi : Nat) : Int)) {s : St β} (hs : Inv g s) (m : Nat) :
    ∃ s', step b s m = .ok s' ∧ Inv g s' ∧
      ∀ k, s'.ix k = if k = m then min (s.ix k + 1) (W g k).length else s.ix k := by
  unfold step
  rcases ht : s.todo m with _ | ⟨c, cs⟩
  · refine ⟨s, rfl, hs, ?_⟩
    intro k
    split
    · rename_i h
      subst h
      have := hs.todo k
      rw [ht] at this
      have h1 := congrArg List.length this
      rw [List.length_nil, List.length_drop] at h1
      have := hs.le k
      omega
    · rfl
  · have hd := hs.todo m
    rw [ht] at hd
    have hlt : s.ix m < (W g m).length := by
      by_contra hc
      rw [List.drop_eq_nil_of_le (by omega)] at hd
      cases hd
    have hact : active g m = true := by
      by_contra hc
      unfold W at hlt
      rw [if_neg hc] at hlt
      simp at hlt
    have hA := W_length_le g m
    have hmono := P_mono (A g) (show m + 1 ≤ g.hi from active_lt hact)
    rw [P_succ] at hmono
    dsimp only
    rw [hb m hact, hu, if_pos (by omega)]
    have hk : (((P (A g) m : Nat) : Int) + (s.ix m : Int)).toNat = P (A g) m + s.ix m := by omega
    rw [hk]
    rw [List.drop_eq_getElem_cons hlt] at hd
    injection hd with hd1 hd2
    refine ⟨_, rfl, ⟨?_, ?_, ?_⟩, ?_⟩
    · intro k
      simp only [upd]
      by_cases h : k = m
      · subst h; simp only [if_true]; exact hd2
      · simp only [if_neg h]; exact hs.todo k
    · intro k
      simp only [upd]
      by_cases h : k = m
      · subst h; simp only [if_true]; omega
      · simp only [if_neg h]; exact hs.le k
    · intro k i hi
      simp only [upd] at hi ⊢
      by_cases h : k = m
      · subst h
        simp only [if_true] at hi
        by_cases h2 : i = s.ix k
        · subst h2
          rw [if_pos rfl, hd1, List.getElem?_eq_getElem hlt]
        · rw [if_neg (by omega)]
          exact hs.mem k i (by omega)
      · simp only [if_neg h] at hi
        rw [if_neg]
        · exact hs.mem k i hi
        · intro he
          have h1 := hs.le k
          have h2 := W_length_le g k
          exact h (P_disjoint (f := A g) (by omega) (by omega) he).1
    · intro k
      simp only [upd]
      by_cases h : k = m
      · subst h; simp only [if_true]; omega
      · simp only [if_neg h]

theorem run_inv {b : Bounds} (hb : ∀ k, active g k = true → before b.approx k = ((P (A g) k : Nat) : Int))
    (hu : b.up = ((P (A g) g.hi : Nat) : Int)) : ∀ (l : List Nat) (s : St β), Inv g s →
    ∃ s', run b l s = .ok s' ∧ Inv g s' ∧ ∀ k, s'.ix k = min (s.ix k + l.count k) (W g k).length
  | [], s, hs => ⟨s, rfl, hs, fun k => by have := hs.le k; simp; omega⟩
  | m :: l, s, hs => by
    obtain ⟨s1, e1, i1, x1⟩ := step_inv hb hu hs m
    obtain ⟨s2, e2, i2, x2⟩ := run_inv hb hu l s1 i1
    refine ⟨s2, ?_, i2, ?_⟩
    · simp only [run, e1]; exact e2
    · intro k
      rw [x2, x1, List.count_cons]
      by_cases h : k = m
      · subst h; simp; omega
      · have h' : ¬ m = k := fun e => h e.symm
        rw [if_neg h]
        simp [h']

/-! ### Copy -/

theorem flatMap_get {α : Type} (f : Nat → List α) : ∀ (n k i : Nat), k < n → i < (f k).length →
    ((List.range n).flatMap f)[P (fun k => (f k).length) k + i]? = (f k)[i]?
  | 0, _, _, h, _ => by omega
  | n + 1, k, i, h, hi => by
    have hlen : ((List.range n).flatMap f).length = P (fun k => (f k).length) n := by
      rw [List.length_flatMap]; rfl
    rw [List.range_succ, List.flatMap_append, List.flatMap_cons, List.flatMap_nil, List.append_nil]
    rcases Nat.lt_or_ge k n with hk | hk
    · rw [List.getElem?_append_left, flatMap_get f n k i hk hi]
      rw [hlen]
      have := P_mono (fun k => (f k).length) (show k + 1 ≤ n by omega)
      rw [P_succ] at this
      omega
    · obtain rfl : k = n := by omega
      rw [List.getElem?_append_right (by rw [hlen]; omega), hlen]
      congr 1
      omega

theorem P_locate {f : Nat → Nat} : ∀ (n x : Nat), x < P f n → ∃ k < n, ∃ i < f k, x = P f k + i
  | 0, x, h => by simp [P] at h
  | n + 1, x, h => by
    rcases Nat.lt_or_ge x (P f n) with hx | hx
    · obtain ⟨k, hk, i, hi, e⟩ := P_locate n x hx
      exact ⟨k, by omega, i, hi, e⟩
    · rw [P_succ] at h
      exact ⟨n, by omega, x - P f n, by omega, by omega⟩

theorem copyAll_ok {n : Nat} {up : Int} {mem : Nat → Option (Rec β)} (F : Nat → Option (Rec β)) :
    ∀ (l : List (Int × Int)) (out : Nat → Option (Rec β)),
      (∀ q ∈ l, (0 ≤ q.1 ∧ q.1 < (n : Int) ∧ 0 ≤ q.2 ∧ q.2 < up) ∧ mem q.2.toNat = F q.1.toNat) →
      ∃ out', copyAll n up mem l out = .ok out' ∧
        ∀ k, out' k = if ∃ q ∈ l, q.1.toNat = k then F k else out k
  | [], out, _ => ⟨out, rfl, by simp⟩
  | q :: l, out, h => by
    obtain ⟨hq, hv⟩ := h q (by simp)
    have e1 : copyStep n up mem out q = .ok (upd out q.1.toNat (mem q.2.toNat)) := by
      unfold copyStep; rw [if_pos hq]
    obtain ⟨out', e2, hk⟩ := copyAll_ok F l (upd out q.1.toNat (mem q.2.toNat))
      fun q' hq' => h q' (List.mem_cons_of_mem _ hq')
    refine ⟨out', ?_, ?_⟩
    · simp only [copyAll, e1]; exact e2
    · intro k
      rw [hk]
      by_cases h1 : ∃ q' ∈ l, q'.1.toNat = k
      · rw [if_pos h1, if_pos]
        obtain ⟨q', hq', e⟩ := h1
        exact ⟨q', List.mem_cons_of_mem _ hq', e⟩
      · rw [if_neg h1]
        by_cases h2 : q.1.toNat = k
        · rw [if_pos ⟨q, by simp, h2⟩]
          subst h2
          simp [upd, hv]
        · rw [if_neg]
          · unfold upd; rw [if_neg fun e => h2 e.symm]
          · rintro ⟨q', hq', e⟩
            rcases List.mem_cons.1 hq' with rfl | hq'
            · exact h2 e
            · exact h1 ⟨q', hq', e⟩

theorem gpuList_eq (hh : g.hi ≤ g.n1) : gpuList g = (List.range g.n1).flatMap (W g) := by
  have hw : ∀ k, k < g.lo ∨ g.hi ≤ k → W g k = [] := by
    intro k hk
    unfold W
    rw [if_neg]
    simp only [active, Bool.and_eq_true, decide_eq_true_eq]
    omega
  rw [← RowRange.flatMap_window (W g) g.lo (g.hi - g.lo) g.n1 (by omega)
    (fun j _ ho => hw j (by omega))]
  unfold gpuList
  rw [List.range'_eq_map_range, List.flatMap_map]
  apply List.flatMap_congr
  intro k hk
  have := List.mem_range.1 hk
  unfold W
  rw [Nat.add_comm k]
  by_cases hm : g.mask (g.lo + k) = true
  · rw [if_pos hm, if_pos]
    simp only [active, Bool.and_eq_true, decide_eq_true_eq]
    exact ⟨⟨by omega, by omega⟩, hm⟩
  · rw [if_neg hm, if_neg]
    simp only [active, Bool.and_eq_true, decide_eq_true_eq]
    exact fun h => hm h.2

/-- The result of the three loops. -/
theorem create_eq {pl : Plan} (hc : Complete g pl) (hh : g.hi ≤ g.n1) {b0 : Bounds} (hb0 : b0.up = 0) {cnt0 : Nat → Int}
    (hcl : Clean g b0 cnt0) :
    create g pl b0 cnt0 = if P (A g) g.hi = 0 then .ok none else .ok (some ((gpuList g).map some)) := by
  have hb := boundsOK hc b0
  have hupd : create g pl b0 cnt0 = create g pl b0 cnt0 := rfl
  unfold create at hupd ⊢
  generalize upbound g pl.order pl.inner b0 = b at hb hupd
  clear hupd
  have hup : b.up = ((P (A g) g.hi : Nat) : Int) := by rw [hb.up, hb0]; omega
  dsimp only
  by_cases h0 : P (A g) g.hi = 0
  · rw [if_pos h0, if_pos (by omega)]
  · rw [if_neg h0, if_neg (by omega)]
    have hn2 : 0 < g.n2 := by
      rcases Nat.eq_zero_or_pos g.n2 with h | h
      · exfalso
        apply h0
        have : ∀ k, A g k = 0 := by
          intro k; unfold A nearCount; rw [h]; simp
        unfold P
        rw [List.sum_eq_zero]
        intro x hx
        obtain ⟨k, _, rfl⟩ := List.mem_map.1 hx
        exact this k
      · exact h
    have happ : ∀ k < g.n1, b.approx k = ((A g k : Nat) : Int) := by
      intro k hk
      rw [hb.approx]
      unfold A
      by_cases ha : active g k = true
      · rw [if_pos ha, if_pos ha]
      · rw [if_neg ha, if_neg ha, (hcl k hk (by simpa using ha)).1]
        rfl
    have hbef : ∀ k ≤ g.n1, before b.approx k = ((P (A g) k : Nat) : Int) := fun k hk => before_eq happ k hk
    have hi0 : Inv g (⟨fun _ => 0, fun _ => none, work g b⟩ : St β) := by
      refine ⟨fun k => ?_, fun k => Nat.zero_le _, fun k i hi => absurd hi (Nat.not_lt_zero _)⟩
      exact hb.work hn2 k
    obtain ⟨s, e, hi, hx⟩ := run_inv (fun k ha => hbef k (by have := active_lt ha; omega)) hup pl.sched _ hi0
    rw [e]
    dsimp only
    have hix : ∀ k, s.ix k = (W g k).length := by
      intro k
      rw [hx]
      by_cases ha : active g k = true
      · have hle : (W g k).length ≤ g.n2 := by
          refine (W_length_le g k).trans ?_
          unfold A nearCount
          rw [if_pos ha]
          exact (List.length_filter_le _ _).trans (by simp)
        have : g.n2 ≤ pl.sched.count k := by
          simp only [active, Bool.and_eq_true, decide_eq_true_eq] at ha
          exact hc.sched k ha.1.1 ha.1.2
        omega
      · have : W g k = [] := by unfold W; rw [if_neg ha]
        rw [this]
        simp
    have hwhi : ∀ k, g.hi ≤ k → W g k = [] := by
      intro k hk
      unfold W
      rw [if_neg]
      intro ha
      have := active_lt ha
      omega
    have htot : total g s = P (fun k => (W g k).length) g.n1 := by
      unfold total P
      have e1 : ∀ m, ((List.range (g.hi + m)).map fun k => (W g k).length).sum =
          ((List.range g.hi).map fun k => (W g k).length).sum := by
        intro m
        induction m with
        | zero => rfl
        | succ m ih =>
          rw [← Nat.add_assoc, List.range_succ, List.map_append, List.sum_append, ih, List.map_singleton, hwhi _ (by omega)]
          simp
      obtain ⟨m, hm⟩ := Nat.exists_eq_add_of_le hh
      rw [hm, e1 m]
      congr 1
      apply List.map_congr_left
      intro k _
      rw [hix]
      by_cases ha : active g k = true
      · rw [if_pos ha]
      · rw [if_neg ha]
        unfold W
        rw [if_neg ha]
        rfl
    have hcnt : ∀ k < g.n1, counts g cnt0 s k = (((W g k).length : Nat) : Int) := by
      intro k hk
      unfold counts
      by_cases ha : active g k = true
      · rw [if_pos ha, hix]
      · rw [if_neg ha, (hcl k hk (by simpa using ha)).2]
        unfold W
        rw [if_neg ha]
        rfl
    have hlen : ((List.range g.n1).flatMap (W g)).length = total g s := by
      rw [htot, List.length_flatMap]; rfl
    rw [gpuList_eq hh]
    by_cases hz : total g s > 0
    · rw [if_pos hz]
      have hcop : ∀ q ∈ pl.copyOrder (copies g (counts g cnt0 s) b.approx), ∃ k < g.n1, ∃ i < (W g k).length,
          q = (((P (fun k => (W g k).length) k + i : Nat) : Int), ((P (A g) k + i : Nat) : Int)) := by
        intro q hq
        have hq := (hc.copies _).mem_iff.1 hq
        unfold copies at hq
        rw [List.mem_flatMap] at hq
        obtain ⟨k, hk, hq⟩ := hq
        have hk := List.mem_range.1 hk
        obtain ⟨i, hi', rfl⟩ := List.mem_map.1 hq
        have hi' := List.mem_range.1 hi'
        rw [hcnt k hk] at hi'
        refine ⟨k, hk, i, by omega, ?_⟩
        rw [before_eq hcnt k (by omega), hbef k (by omega)]
        push_cast
        rfl
      have hcop2 : ∀ k < g.n1, ∀ i < (W g k).length,
          (((P (fun k => (W g k).length) k + i : Nat) : Int), ((P (A g) k + i : Nat) : Int)) ∈
            pl.copyOrder (copies g (counts g cnt0 s) b.approx) := by
        intro k hk i hi'
        rw [(hc.copies _).mem_iff]
        unfold copies
        rw [List.mem_flatMap]
        refine ⟨k, List.mem_range.2 hk, List.mem_map.2 ⟨i, List.mem_range.2 ?_, ?_⟩⟩
        · rw [hcnt k hk]; omega
        · rw [before_eq hcnt k (by omega), hbef k (by omega)]
          push_cast
          rfl
      obtain ⟨out, eo, ho⟩ := copyAll_ok (n := total g s) (up := b.up) (mem := s.mem)
        (fun k => ((List.range g.n1).flatMap (W g))[k]?) _ (fun _ => none) (by
          intro q hq
          obtain ⟨k, hk, i, hi', rfl⟩ := hcop q hq
          have hP := P_mono (fun k => (W g k).length) (show k + 1 ≤ g.n1 by omega)
          rw [P_succ] at hP
          have hkhi : k < g.hi := by
            by_contra hc'
            rw [hwhi k (by omega)] at hi'
            simp at hi'
          have hPA := P_mono (A g) (show k + 1 ≤ g.hi by omega)
          rw [P_succ] at hPA
          have := W_length_le g k
          refine ⟨⟨by dsimp only; omega, by dsimp only; omega, by dsimp only; omega, by dsimp only; omega⟩, ?_⟩
          simp only [Int.toNat_natCast]
          rw [hi.mem k i (by rw [hix]; exact hi')]
          exact (flatMap_get (W g) g.n1 k i hk hi').symm)
      rw [eo]
      dsimp only
      congr 2
      apply List.ext_getElem
      · simp [hlen]
      · intro x h1 h2
        simp only [List.length_map, List.length_range] at h1
        simp only [List.getElem_map, List.getElem_range]
        rw [ho]
        have hx2 : x < ((List.range g.n1).flatMap (W g)).length := by omega
        rw [if_pos]
        · exact List.getElem?_eq_getElem hx2
        · rw [htot] at h1
          obtain ⟨k, hk, i, hi', e'⟩ := P_locate g.n1 x h1
          exact ⟨_, hcop2 k hk i hi', by simp only [Int.toNat_natCast]; exact e'.symm⟩
    · rw [if_neg hz]
      have : (List.range g.n1).flatMap (W g) = [] := List.eq_nil_of_length_eq_zero (by omega)
      rw [this]
      rfl

end Verif.GpuXgrid
