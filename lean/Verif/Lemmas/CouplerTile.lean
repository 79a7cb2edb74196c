import Verif.Spec.CouplerTile
import Mathlib.Algebra.Order.BigOperators.Group.List
import Mathlib.Algebra.BigOperators.Group.List.Basic
import Mathlib.Tactic.Linarith
import Mathlib.Tactic.Ring
import Mathlib.Tactic.NormNum
import Mathlib.Tactic.Positivity
import Mathlib.Tactic.SplitIfs
/-
Lemmas about the division of atmosphere cells by make_coupler_mosaic.
-/
namespace Verif.CouplerTile

open Spec.Tile

variable {K L O : Type} [Field K] [LinearOrder K]

section total
variable {X Y : Type}

theorem total_nil (f : X → K) : total [] f = 0 := rfl

theorem total_cons (x : X) (xs : List X) (f : X → K) : total (x :: xs) f = f x + total xs f := by
  simp [total]

theorem total_append (xs ys : List X) (f : X → K) : total (xs ++ ys) f = total xs f + total ys f := by
  simp [total]

theorem total_congr {xs : List X} {f g : X → K} (h : ∀ x ∈ xs, f x = g x) : total xs f = total xs g := by
  unfold total
  rw [List.map_congr_left h]

theorem total_zero (xs : List X) : total xs (fun _ => (0 : K)) = 0 := by
  induction xs with
  | nil => rfl
  | cons x xs ih => rw [total_cons, ih, zero_add]

theorem total_add (xs : List X) (f g : X → K) : total xs (fun x => f x + g x) = total xs f + total xs g := by
  induction xs with
  | nil => simp [total]
  | cons x xs ih => rw [total_cons, total_cons, total_cons, ih]; ring

theorem total_sub (xs : List X) (f g : X → K) : total xs (fun x => f x - g x) = total xs f - total xs g := by
  induction xs with
  | nil => simp [total]
  | cons x xs ih => rw [total_cons, total_cons, total_cons, ih]; ring

theorem total_mul (xs : List X) (c : K) (f : X → K) : total xs (fun x => c * f x) = c * total xs f := by
  induction xs with
  | nil => simp [total]
  | cons x xs ih => rw [total_cons, total_cons, ih]; ring

theorem total_swap (xs : List X) (ys : List Y) (f : X → Y → K) :
    total xs (fun x => total ys (f x)) = total ys (fun y => total xs (f · y)) := by
  induction xs with
  | nil => simp only [total_nil, total_zero]
  | cons x xs ih => simp only [total_cons, total_add, ih]

theorem total_map (g : Y → X) (ys : List Y) (f : X → K) : total (ys.map g) f = total ys (fun y => f (g y)) := by
  unfold total
  rw [List.map_map]
  rfl

theorem total_filter (p : X → Bool) (xs : List X) (f : X → K) :
    total (xs.filter p) f = total xs (fun x => if p x then f x else 0) := by
  induction xs with
  | nil => rfl
  | cons x xs ih =>
    rw [List.filter_cons, total_cons]
    cases hp : p x with
    | true => simp only [if_true, total_cons, ih]
    | false => simp only [Bool.false_eq_true, if_false, zero_add, ih]

theorem total_filterMap (p : X → Option Y) (xs : List X) (f : Y → K) :
    total (xs.filterMap p) f = total xs (fun x => ((p x).map f).getD 0) := by
  induction xs with
  | nil => rfl
  | cons x xs ih =>
    rw [List.filterMap_cons, total_cons]
    cases hp : p x with
    | none => simp only [ih, Option.map_none, Option.getD_none, zero_add]
    | some y => simp only [total_cons, ih, Option.map_some, Option.getD_some]

/-- A sum over a list without repetitions in which only one element counts. -/
theorem total_single [DecidableEq X] {xs : List X} (hn : xs.Nodup) {x : X} (hx : x ∈ xs) (f : X → K) :
    total xs (fun y => if y = x then f y else 0) = f x := by
  induction xs with
  | nil => simp at hx
  | cons y ys ih =>
    rw [List.nodup_cons] at hn
    rw [total_cons]
    rcases List.mem_cons.mp hx with rfl | h
    · rw [if_pos rfl, total_congr (g := fun _ => 0), total_zero, add_zero]
      intro z hz
      rw [if_neg]
      rintro rfl
      exact hn.1 hz
    · rw [if_neg, ih hn.2 h, zero_add]
      rintro rfl
      exact hn.1 h

theorem total_none [DecidableEq X] {xs : List X} {x : X} (hx : x ∉ xs) (f : X → K) :
    total xs (fun y => if y = x then f y else 0) = 0 := by
  rw [total_congr (g := fun _ => 0), total_zero]
  intro z hz
  rw [if_neg]
  rintro rfl
  exact hx hz

variable [IsStrictOrderedRing K]

theorem total_nonneg {xs : List X} {f : X → K} (h : ∀ x ∈ xs, 0 ≤ f x) : 0 ≤ total xs f := by
  unfold total
  apply List.sum_nonneg
  intro y hy
  obtain ⟨x, hx, rfl⟩ := List.mem_map.mp hy
  exact h x hx

theorem total_le {xs : List X} {f g : X → K} (h : ∀ x ∈ xs, f x ≤ g x) : total xs f ≤ total xs g := by
  have := total_nonneg (xs := xs) (f := fun x => g x - f x) fun x hx => sub_nonneg.mpr (h x hx)
  rw [total_sub] at this
  linarith

/-- A sum of a constant over the elements that satisfy a condition. -/
theorem total_count (p : X → Bool) (xs : List X) (c : K) :
    total xs (fun x => if p x then c else 0) = c * ((xs.filter p).length : K) := by
  induction xs with
  | nil => simp [total]
  | cons x xs ih =>
    rw [total_cons, ih, List.filter_cons]
    cases hp : p x with
    | true => simp only [if_true, List.length_cons]; push_cast; ring
    | false => simp only [Bool.false_eq_true, if_false, zero_add]

theorem total_natCast (xs : List X) (c : K) (n : X → Nat) :
    total xs (fun x => c * (n x : K)) = c * (((xs.map n).sum : Nat) : K) := by
  induction xs with
  | nil => simp [total]
  | cons x xs ih => rw [total_cons, ih]; simp only [List.map_cons, List.sum_cons]; push_cast; ring

end total

/-! ### The loops in closed form -/

/-- The land cells remembered. -/
def kept (g : Geometry K L O) (thresh : K) (l : L) : Bool :=
  match g.clipAL l with
  | none => false
  | some x => decide (x / min (g.areaL l) g.areaA > thresh)

theorem keep_loop (g : Geometry K L O) (thresh : K) (mx : Nat) (lnds : List L) (ks r : List L)
    (h : lnds.foldlM (keepStep g thresh mx) ks = .ok r) : r = ks ++ lnds.filter (kept g thresh) := by
  induction lnds generalizing ks with
  | nil => simp only [List.foldlM_nil] at h; cases h; simp
  | cons l ls ih =>
    rw [List.foldlM_cons] at h
    unfold keepStep at h
    rw [List.filter_cons]
    cases hc : g.clipAL l with
    | none =>
      rw [hc] at h
      have : kept g thresh l = false := by simp only [kept, hc]
      rw [this]
      exact ih _ h
    | some x =>
      rw [hc] at h
      by_cases hx : x / min (g.areaL l) g.areaA > thresh
      · have : kept g thresh l = true := by simp only [kept, hc, decide_eq_true_eq]; exact hx
        rw [this]
        simp only [hx, if_true] at h
        by_cases hl : ks.length < mx
        · rw [if_pos hl, if_neg (by omega)] at h
          have := ih _ h
          rw [this]
          simp
        · rw [if_neg hl] at h
          cases h
      · have : kept g thresh l = false := by simp only [kept, hc, decide_eq_false_iff_not]; exact hx
        rw [this]
        simp only [hx, if_false] at h
        exact ih _ h

theorem keep_eq {g : Geometry K L O} {thresh : K} {mx : Nat} {lnds r : List L} (h : keep g thresh mx lnds = .ok r) :
    r = lnds.filter (kept g thresh) := by
  simpa using keep_loop g thresh mx lnds [] r h

/-- The loop over land cells succeeds when there is room for all pieces. -/
theorem keep_ok (g : Geometry K L O) (thresh : K) (mx : Nat) (lnds ks : List L)
    (h : ks.length + (lnds.filter (kept g thresh)).length ≤ mx) :
    ∃ r, lnds.foldlM (keepStep g thresh mx) ks = .ok r := by
  induction lnds generalizing ks with
  | nil => exact ⟨ks, rfl⟩
  | cons l ls ih =>
    rw [List.foldlM_cons]
    unfold keepStep
    rw [List.filter_cons] at h
    cases hc : g.clipAL l with
    | none =>
      have : kept g thresh l = false := by simp only [kept, hc]
      rw [this] at h
      exact ih _ h
    | some x =>
      by_cases hx : x / min (g.areaL l) g.areaA > thresh
      · have : kept g thresh l = true := by simp only [kept, hc, decide_eq_true_eq]; exact hx
        rw [this] at h
        simp only [if_true, List.length_cons] at h
        simp only [hx, if_true]
        rw [if_pos (by omega), if_neg (by omega)]
        exact ih _ (by simp only [List.length_append, List.length_singleton]; omega)
      · have : kept g thresh l = false := by simp only [kept, hc, decide_eq_false_iff_not]; exact hx
        rw [this] at h
        simp only [hx, if_false]
        exact ih _ h

/-- What one ocean cell adds to a remembered piece. -/
def landOf (g : Geometry K L O) (thresh : K) (l : L) (o : O) : K :=
  if (g.frac o > minFrac ∧ g.outside o = true) ∨ ¬ (1 - g.frac o > minFrac) then 0
  else match g.clipALO l o with
    | none => 0
    | some x => if x * (1 - g.frac o) / min (g.areaL l) g.areaA > thresh then x * (1 - g.frac o) else 0

/-- The exchange cell of one ocean cell. -/
def ocnOf (g : Geometry K L O) (thresh : K) (o : O) : Option (O × K) :=
  if g.frac o > minFrac ∧ g.outside o = false then
    match g.clipAO o with
    | none => none
    | some x => if x * g.frac o / min (g.areaO o) g.areaA > thresh then some (o, x * g.frac o) else none
  else none

theorem landPart_eq {g : Geometry K L O} {thresh : K} {o : O}
    (h : ¬ (g.frac o > minFrac ∧ g.outside o = true)) (axl : List (L × K)) :
    landPart g thresh o axl = axl.map fun p => (p.1, p.2 + landOf g thresh p.1 o) := by
  unfold landPart
  by_cases h2 : 1 - g.frac o > minFrac
  · rw [if_pos h2]
    apply List.map_congr_left
    intro p _
    unfold addLand landOf
    rw [if_neg (by tauto)]
    cases g.clipALO p.1 o with
    | none => simp
    | some x =>
      simp only
      split <;> simp
  · rw [if_neg h2]
    conv_lhs => rw [← List.map_id axl]
    apply List.map_congr_left
    intro p _
    unfold landOf
    rw [if_pos (Or.inr h2)]
    simp

theorem ocnStep_eq (g : Geometry K L O) (thresh : K) (s : List (L × K) × List (O × K)) (o : O) :
    ocnStep g thresh s o = (s.1.map fun p => (p.1, p.2 + landOf g thresh p.1 o),
      s.2 ++ (ocnOf g thresh o).toList) := by
  unfold ocnStep
  by_cases h1 : g.frac o > minFrac
  · rw [if_pos h1]
    cases h2 : g.outside o with
    | true =>
      rw [if_pos rfl]
      have hl : ∀ l, landOf g thresh l o = 0 := fun l => by
        unfold landOf; rw [if_pos (Or.inl ⟨h1, h2⟩)]
      have ho : ocnOf g thresh o = none := by unfold ocnOf; rw [if_neg (by simp [h2])]
      simp [hl, ho]
    | false =>
      rw [if_neg (by simp), landPart_eq (by simp [h2])]
      congr 1
      unfold ocnEntry ocnOf
      rw [if_pos ⟨h1, h2⟩]
      cases g.clipAO o with
      | none => simp
      | some x => simp only; split <;> simp
  · rw [if_neg h1, landPart_eq (by tauto)]
    have ho : ocnOf g thresh o = none := by unfold ocnOf; rw [if_neg (by tauto)]
    simp [ho]

theorem ocn_loop (g : Geometry K L O) (thresh : K) (ocns : List O) (s : List (L × K) × List (O × K)) :
    ocns.foldl (ocnStep g thresh) s = (s.1.map fun p => (p.1, p.2 + total ocns (landOf g thresh p.1)),
      s.2 ++ ocns.filterMap (ocnOf g thresh)) := by
  induction ocns generalizing s with
  | nil => simp [total_nil]
  | cons o os ih =>
    rw [List.foldl_cons, ih, ocnStep_eq, List.filterMap_cons]
    simp only [List.map_map, total_cons]
    congr 1
    · apply List.map_congr_left
      intro p _
      simp only [Function.comp_apply, add_assoc]
    · cases ocnOf g thresh o <;> simp

/-- The exchange cells of one atmosphere cell in closed form. -/
theorem cellXgrid_eq {g : Geometry K L O} {thresh : K} {mx : Nat} {lnds : List L} {ocns : List O}
    {axo : List (O × K)} {axl : List (L × K)} (h : cellXgrid g thresh mx lnds ocns = .ok (axo, axl)) :
    axo = ocns.filterMap (ocnOf g thresh)
    ∧ axl = ((lnds.filter (kept g thresh)).map fun l => (l, total ocns (landOf g thresh l))).filter
        fun p => decide (p.2 / min (g.areaL p.1) g.areaA > thresh) := by
  unfold cellXgrid at h
  cases hk : keep g thresh mx lnds with
  | error e => rw [hk] at h; cases h
  | ok ks =>
    rw [hk] at h
    have hks := keep_eq hk
    simp only [bind, Except.bind, pure, Except.pure, Except.ok.injEq, Prod.mk.injEq, ocn_loop, List.nil_append,
      List.map_map] at h
    obtain ⟨rfl, rfl⟩ := h
    refine ⟨rfl, ?_⟩
    rw [hks]
    congr 1
    apply List.map_congr_left
    intro l _
    simp

theorem cellXgrid_ok (g : Geometry K L O) (thresh : K) (mx : Nat) (lnds : List L) (ocns : List O)
    (h : lnds.length ≤ mx) : ∃ r, cellXgrid g thresh mx lnds ocns = .ok r := by
  obtain ⟨r, hr⟩ := keep_ok g thresh mx lnds [] (by
    have := List.length_filter_le (kept g thresh) lnds
    simp only [List.length_nil]; omega)
  unfold cellXgrid keep
  rw [hr]
  exact ⟨_, rfl⟩

/-- Area of the exchange cell with ocean cell `o`. -/
def ocnArea (g : Geometry K L O) (thresh : K) (o : O) : K := ((ocnOf g thresh o).map Prod.snd).getD 0

/-- Area of the exchange cell with land cell `l`. -/
def lndArea (g : Geometry K L O) (thresh : K) (ocns : List O) (l : L) : K :=
  if kept g thresh l = true ∧ total ocns (landOf g thresh l) / min (g.areaL l) g.areaA > thresh then
    total ocns (landOf g thresh l) else 0

theorem ocnOf_fst {g : Geometry K L O} {thresh : K} {o : O} {e : O × K} (h : ocnOf g thresh o = some e) :
    e.1 = o := by
  unfold ocnOf at h
  split at h
  · cases hc : g.clipAO o with
    | none => rw [hc] at h; cases h
    | some x =>
      rw [hc] at h
      simp only at h
      split at h
      · rw [Option.some.injEq] at h; rw [← h]
      · cases h
  · cases h

theorem total_axo (g : Geometry K L O) (thresh : K) (ocns : List O) :
    total (ocns.filterMap (ocnOf g thresh)) Prod.snd = total ocns (ocnArea g thresh) := by
  rw [total_filterMap]; rfl

theorem total_axl (g : Geometry K L O) (thresh : K) (lnds : List L) (ocns : List O) :
    total (((lnds.filter (kept g thresh)).map fun l => (l, total ocns (landOf g thresh l))).filter
        fun p => decide (p.2 / min (g.areaL p.1) g.areaA > thresh)) Prod.snd
      = total lnds (lndArea g thresh ocns) := by
  rw [total_filter, total_map, total_filter]
  apply total_congr
  intro l _
  unfold lndArea
  by_cases h1 : kept g thresh l = true
  · by_cases h2 : total ocns (landOf g thresh l) / min (g.areaL l) g.areaA > thresh
    · simp only [h1, h2, if_true, decide_true, and_self]
    · simp only [h1, h2, if_true, if_false, decide_false, and_false, Bool.false_eq_true]
  · simp only [h1, if_false, false_and, Bool.false_eq_true]

theorem areaOf_axo [DecidableEq O] (g : Geometry K L O) (thresh : K) {ocns : List O} (hn : ocns.Nodup) (o : O) :
    areaOf (ocns.filterMap (ocnOf g thresh)) o = if o ∈ ocns then ocnArea g thresh o else 0 := by
  unfold areaOf
  rw [total_filter, total_filterMap]
  have : total ocns (fun x => ((ocnOf g thresh x).map fun e : O × K => if decide (e.1 = o) = true then e.2 else 0).getD 0)
      = total ocns (fun x => if x = o then ocnArea g thresh x else 0) := by
    apply total_congr
    intro x _
    unfold ocnArea
    cases he : ocnOf g thresh x with
    | none => simp
    | some e =>
      have := ocnOf_fst he
      simp [this]
  rw [this]
  by_cases ho : o ∈ ocns
  · rw [total_single hn ho, if_pos ho]
  · rw [total_none ho, if_neg ho]

theorem areaOf_axl [DecidableEq L] (g : Geometry K L O) (thresh : K) {lnds : List L} (ocns : List O)
    (hn : lnds.Nodup) (l : L) :
    areaOf (((lnds.filter (kept g thresh)).map fun l => (l, total ocns (landOf g thresh l))).filter
        fun p => decide (p.2 / min (g.areaL p.1) g.areaA > thresh)) l
      = if l ∈ lnds then lndArea g thresh ocns l else 0 := by
  unfold areaOf
  rw [total_filter, total_filter, total_map, total_filter]
  have : total lnds (fun x => if kept g thresh x = true then
        (if decide (total ocns (landOf g thresh x) / min (g.areaL x) g.areaA > thresh) = true then
          (if decide (x = l) = true then total ocns (landOf g thresh x) else 0) else 0) else 0)
      = total lnds (fun x => if x = l then lndArea g thresh ocns x else 0) := by
    apply total_congr
    intro x _
    unfold lndArea
    by_cases h1 : kept g thresh x = true
    · by_cases h2 : total ocns (landOf g thresh x) / min (g.areaL x) g.areaA > thresh
      · simp only [h1, h2, if_true, decide_true, and_self, decide_eq_true_eq]
      · simp [h1, h2]
    · simp [h1]
  rw [this]
  by_cases ho : l ∈ lnds
  · rw [total_single hn ho, if_pos ho]
  · rw [total_none ho, if_neg ho]

/-! ### Bounds -/

variable [IsStrictOrderedRing K]

theorem minFrac_pos : (0 : K) < minFrac := by unfold minFrac; positivity

theorem two_minFrac : (minFrac : K) + minFrac < 1 := by unfold minFrac; norm_num

/-- The exchange cell with an ocean cell: ocean part of the overlap, or nothing when it is too small. -/
theorem ocnArea_bound {g : Geometry K L O} {lnds : List L} {ocns : List O} {T : L → O → K}
    (hp : Pieces g lnds ocns T) {thresh : K} (ht : 0 ≤ thresh) {o : O} (ho : o ∈ ocns) :
    0 ≤ g.frac o * total lnds (T · o) - ocnArea g thresh o
    ∧ g.frac o * total lnds (T · o) - ocnArea g thresh o
      ≤ (if g.frac o ≤ minFrac then minFrac * total lnds (T · o) else 0)
        + (if 0 < total lnds (T · o) then thresh * min (g.areaO o) g.areaA else 0)
    ∧ 0 ≤ ocnArea g thresh o := by
  have hT : 0 ≤ total lnds (T · o) := total_nonneg fun l _ => hp.nonneg l o
  have hf := hp.frac o ho
  have hm : 0 < min (g.areaO o) g.areaA := lt_min (hp.areaO o ho) hp.areaA
  have hfT : 0 ≤ g.frac o * total lnds (T · o) := mul_nonneg hf.1 hT
  have hth : 0 ≤ thresh * min (g.areaO o) g.areaA := mul_nonneg ht hm.le
  have hB : (0 : K) ≤ if 0 < total lnds (T · o) then thresh * min (g.areaO o) g.areaA else 0 := by
    split <;> [exact hth; exact le_refl _]
  unfold ocnArea ocnOf
  by_cases h1 : g.frac o > minFrac
  · rw [if_neg (not_le.mpr h1)]
    cases h2 : g.outside o with
    | true =>
      rw [if_neg (by simp)]
      have := hp.outside o ho h2
      simp only [Option.map_none, Option.getD_none, this, mul_zero, sub_zero, le_refl, true_and, and_true]
      simp
    | false =>
      rw [if_pos ⟨h1, rfl⟩]
      have hc := hp.clipAO o ho
      cases hx : g.clipAO o with
      | none =>
        rw [hx] at hc
        simp only [Option.getD_none] at hc
        simp [← hc]
      | some x =>
        rw [hx] at hc
        simp only [Option.getD_some] at hc
        subst hc
        simp only
        split
        · simp only [Option.map_some, Option.getD_some]
          rw [mul_comm (g.frac o), sub_self]
          refine ⟨le_refl _, by linarith, ?_⟩
          rw [mul_comm]; exact hfT
        · rename_i hle
          simp only [Option.map_none, Option.getD_none, sub_zero, le_refl, and_true]
          refine ⟨hfT, ?_⟩
          rw [gt_iff_lt, not_lt, div_le_iff₀ hm] at hle
          rcases hT.eq_or_lt with h0 | h0
          · rw [← h0]; simp
          · rw [if_pos h0]; linarith
  · rw [if_pos (not_lt.mp h1), if_neg (by tauto)]
    simp only [Option.map_none, Option.getD_none, sub_zero, le_refl, and_true]
    exact ⟨hfT, by have := mul_le_mul_of_nonneg_right (not_lt.mp h1) hT; linarith⟩

/-- What one ocean cell gives to one land piece. -/
theorem landOf_bound {g : Geometry K L O} {lnds : List L} {ocns : List O} {T : L → O → K}
    (hp : Pieces g lnds ocns T) {thresh : K} (ht : 0 ≤ thresh) {l : L} (hl : l ∈ lnds) {o : O} (ho : o ∈ ocns) :
    0 ≤ landOf g thresh l o
    ∧ landOf g thresh l o ≤ (1 - g.frac o) * T l o
    ∧ (1 - g.frac o) * T l o - landOf g thresh l o
      ≤ (if 1 - g.frac o ≤ minFrac then minFrac * T l o else 0)
        + (if 0 < T l o then thresh * min (g.areaL l) g.areaA else 0) := by
  have hT := hp.nonneg l o
  have hf := hp.frac o ho
  have hm : 0 < min (g.areaL l) g.areaA := lt_min (hp.areaL l hl) hp.areaA
  have hfT : 0 ≤ (1 - g.frac o) * T l o := mul_nonneg (by linarith [hf.2]) hT
  have hth : 0 ≤ thresh * min (g.areaL l) g.areaA := mul_nonneg ht hm.le
  have hB : (0 : K) ≤ if 0 < T l o then thresh * min (g.areaL l) g.areaA else 0 := by
    split <;> [exact hth; exact le_refl _]
  have hC : (0 : K) ≤ if 1 - g.frac o ≤ minFrac then minFrac * T l o else 0 := by
    split <;> [exact mul_nonneg minFrac_pos.le hT; exact le_refl _]
  unfold landOf
  by_cases h1 : g.frac o > minFrac ∧ g.outside o = true
  · rw [if_pos (Or.inl h1)]
    have h0 := hp.outside o ho h1.2
    have : T l o = 0 := by
      apply le_antisymm _ hT
      have hle : T l o ≤ total lnds (T · o) := by
        have h3 : ∀ ls : List L, l ∈ ls → T l o ≤ total ls (T · o) := by
          intro ls
          induction ls with
          | nil => intro h; simp at h
          | cons x xs ih =>
            intro h
            rw [total_cons]
            rcases List.mem_cons.mp h with rfl | h
            · linarith [total_nonneg (xs := xs) (f := (T · o)) fun l _ => hp.nonneg l o]
            · linarith [ih h, hp.nonneg x o]
        exact h3 lnds hl
      rw [h0] at hle
      exact hle
    rw [this]
    simp
  · by_cases h2 : 1 - g.frac o > minFrac
    · rw [if_neg (by tauto), if_neg (not_le.mpr h2)]
      have hc := hp.clipALO l hl o ho
      cases hx : g.clipALO l o with
      | none =>
        rw [hx] at hc
        simp only [Option.getD_none] at hc
        simp [← hc]
      | some x =>
        rw [hx] at hc
        simp only [Option.getD_some] at hc
        subst hc
        simp only
        split
        · refine ⟨by rw [mul_comm]; exact hfT, by rw [mul_comm], ?_⟩
          rw [mul_comm (1 - g.frac o), sub_self]
          linarith
        · rename_i hle
          refine ⟨le_refl _, hfT, ?_⟩
          rw [gt_iff_lt, not_lt, div_le_iff₀ hm] at hle
          rcases hT.eq_or_lt with h0 | h0
          · rw [← h0]; simp
          · rw [if_pos h0]; linarith
    · rw [if_pos (Or.inr h2), if_pos (not_lt.mp h2)]
      refine ⟨le_refl _, hfT, ?_⟩
      have := mul_le_mul_of_nonneg_right (not_lt.mp h2) hT
      linarith

/-- The exchange cell with a land cell. -/
theorem lndArea_bound {g : Geometry K L O} {lnds : List L} {ocns : List O} {T : L → O → K}
    (hp : Pieces g lnds ocns T) {thresh : K} (ht : 0 ≤ thresh) {l : L} (hl : l ∈ lnds) :
    0 ≤ lndArea g thresh ocns l
    ∧ lndArea g thresh ocns l ≤ total ocns (fun o => (1 - g.frac o) * T l o)
    ∧ total ocns (fun o => (1 - g.frac o) * T l o) - lndArea g thresh ocns l
      ≤ total ocns (fun o => (if 1 - g.frac o ≤ minFrac then minFrac * T l o else 0)
          + (if 0 < T l o then thresh * min (g.areaL l) g.areaA else 0))
        + (if 0 < total ocns (T l) then thresh * min (g.areaL l) g.areaA else 0) := by
  have hm : 0 < min (g.areaL l) g.areaA := lt_min (hp.areaL l hl) hp.areaA
  have hth : 0 ≤ thresh * min (g.areaL l) g.areaA := mul_nonneg ht hm.le
  have b := fun o ho => landOf_bound hp ht hl (o := o) ho
  have hS0 : 0 ≤ total ocns (landOf g thresh l) := total_nonneg fun o ho => (b o ho).1
  have hS1 : total ocns (landOf g thresh l) ≤ total ocns (fun o => (1 - g.frac o) * T l o) :=
    total_le fun o ho => (b o ho).2.1
  have hS2 := total_le (f := fun o => (1 - g.frac o) * T l o - landOf g thresh l o) fun o ho => (b o ho).2.2
  rw [total_sub] at hS2
  have hT : 0 ≤ total ocns (T l) := total_nonneg fun o _ => hp.nonneg l o
  have hle : total ocns (fun o => (1 - g.frac o) * T l o) ≤ total ocns (T l) := by
    apply total_le
    intro o ho
    have := mul_le_mul_of_nonneg_right (show 1 - g.frac o ≤ 1 by linarith [(hp.frac o ho).1]) (hp.nonneg l o)
    linarith
  have h0 : 0 ≤ total ocns (fun o => (if 1 - g.frac o ≤ minFrac then minFrac * T l o else 0)
          + (if 0 < T l o then thresh * min (g.areaL l) g.areaA else 0)) := by
    apply total_nonneg
    intro o _
    apply add_nonneg
    · split <;> [exact mul_nonneg minFrac_pos.le (hp.nonneg l o); exact le_refl _]
    · split <;> [exact hth; exact le_refl _]
  unfold lndArea
  by_cases h1 : kept g thresh l = true
  · by_cases h2 : total ocns (landOf g thresh l) / min (g.areaL l) g.areaA > thresh
    · rw [if_pos ⟨h1, h2⟩]
      refine ⟨hS0, hS1, ?_⟩
      have : (0 : K) ≤ if 0 < total ocns (T l) then thresh * min (g.areaL l) g.areaA else 0 := by
        split <;> [exact hth; exact le_refl _]
      linarith
    · rw [if_neg (by tauto)]
      refine ⟨le_refl _, hS0.trans hS1, ?_⟩
      rw [gt_iff_lt, not_lt, div_le_iff₀ hm] at h2
      rcases hT.eq_or_lt with h3 | h3
      · rw [← h3, if_neg (lt_irrefl _)]
        linarith
      · rw [if_pos h3]
        linarith
  · rw [if_neg (by tauto)]
    refine ⟨le_refl _, hS0.trans hS1, ?_⟩
    have hc := hp.clipAL l hl
    unfold kept at h1
    cases hx : g.clipAL l with
    | none =>
      rw [hx] at hc
      simp only [Option.getD_none] at hc
      rw [← hc, if_neg (lt_irrefl _)]
      linarith
    | some x =>
      rw [hx] at hc h1
      simp only [Option.getD_some] at hc
      subst hc
      simp only [decide_eq_true_eq, gt_iff_lt, not_lt, div_le_iff₀ hm] at h1
      rcases hT.eq_or_lt with h3 | h3
      · rw [← h3, if_neg (lt_irrefl _)]
        linarith
      · rw [if_pos h3]
        linarith

end Verif.CouplerTile

namespace Verif.CouplerTile

open Spec.Tile

variable {K L O : Type} [Field K] [LinearOrder K]

/-! ### The limit on remembered pieces -/

theorem keep_oob (g : Geometry K L O) (thresh : K) (mx : Nat) (lnds ks : List L) (hk : ks.length ≤ mx)
    (h : mx < ks.length + (lnds.filter (kept g thresh)).length) :
    lnds.foldlM (keepStep g thresh mx) ks = .error .oob := by
  induction lnds generalizing ks with
  | nil => simp at h; omega
  | cons l ls ih =>
    rw [List.foldlM_cons]
    unfold keepStep
    rw [List.filter_cons] at h
    cases hc : g.clipAL l with
    | none =>
      have : kept g thresh l = false := by simp only [kept, hc]
      rw [this] at h
      exact ih _ hk h
    | some x =>
      by_cases hx : x / min (g.areaL l) g.areaA > thresh
      · have : kept g thresh l = true := by simp only [kept, hc, decide_eq_true_eq]; exact hx
        rw [this] at h
        simp only [if_true, List.length_cons] at h
        simp only [hx, if_true]
        by_cases hl : ks.length < mx
        · rw [if_pos hl, if_neg (by omega)]
          exact ih _ (by simp only [List.length_append, List.length_singleton]; omega)
            (by simp only [List.length_append, List.length_singleton]; omega)
        · rw [if_neg hl]
          rfl
      · have : kept g thresh l = false := by simp only [kept, hc, decide_eq_false_iff_not]; exact hx
        rw [this] at h
        simp only [hx, if_false]
        exact ih _ hk h

theorem cellXgrid_cases (g : Geometry K L O) (thresh : K) (mx : Nat) (lnds : List L) (ocns : List O) :
    ((lnds.filter (kept g thresh)).length ≤ mx → ∃ r, cellXgrid g thresh mx lnds ocns = .ok r)
    ∧ (mx < (lnds.filter (kept g thresh)).length → cellXgrid g thresh mx lnds ocns = .error .oob) := by
  constructor
  · intro h
    obtain ⟨r, hr⟩ := keep_ok g thresh mx lnds [] (by simpa using h)
    unfold cellXgrid keep
    rw [hr]
    exact ⟨_, rfl⟩
  · intro h
    have hr := keep_oob g thresh mx lnds [] (by simp) (by simpa using h)
    unfold cellXgrid keep
    rw [hr]
    rfl

theorem kept_iff [IsStrictOrderedRing K] {g : Geometry K L O} {lnds : List L} {ocns : List O} {T : L → O → K}
    (hp : Pieces g lnds ocns T) {thresh : K} (ht : 0 ≤ thresh) {l : L} (hl : l ∈ lnds) :
    kept g thresh l = decide (thresh * min (g.areaL l) g.areaA < total ocns (T l)) := by
  have hm : 0 < min (g.areaL l) g.areaA := lt_min (hp.areaL l hl) hp.areaA
  have hc := hp.clipAL l hl
  unfold kept
  cases hx : g.clipAL l with
  | none =>
    rw [hx] at hc
    simp only [Option.getD_none] at hc
    rw [← hc]
    simp only [eq_comm (a := false), decide_eq_false_iff_not, not_lt]
    exact mul_nonneg ht hm.le
  | some x =>
    rw [hx] at hc
    simp only [Option.getD_some] at hc
    subst hc
    simp only [gt_iff_lt, lt_div_iff₀ hm]

/-! ### Sums over all atmosphere cells -/

theorem parentArea_eq {A P : Type} [DecidableEq P] (nest : A → Bool) (xs : List (A × P × K)) (s : P → K) (p : P) :
    xs.foldl (fun s e => if nest e.1 then s else Function.update s e.2.1 (s e.2.1 + e.2.2)) s p
      = s p + total xs (fun e => if nest e.1 = false ∧ e.2.1 = p then e.2.2 else 0) := by
  induction xs generalizing s with
  | nil => simp [total_nil]
  | cons e es ih =>
    rw [List.foldl_cons, ih, total_cons]
    cases hn : nest e.1 with
    | true => simp
    | false =>
      by_cases hp : e.2.1 = p
      · subst hp
        simp only [Bool.false_eq_true, if_false, Function.update_self, true_and, if_true]
        ring
      · simp only [Bool.false_eq_true, if_false, Function.update_of_ne (Ne.symm hp), true_and, hp, zero_add]

theorem total_entries {A P : Type} [DecidableEq P] (nest : A → Bool) (a : A) (xs : List (P × K)) (p : P) :
    total (xs.map fun e => (a, e)) (fun e : A × P × K => if nest e.1 = false ∧ e.2.1 = p then e.2.2 else 0)
      = if nest a then 0 else areaOf xs p := by
  rw [total_map]
  unfold areaOf
  rw [total_filter]
  cases hn : nest a with
  | true => simp [hn, total_zero]
  | false => simp [hn]

theorem xgrid_areas {A : Type} [DecidableEq O] [DecidableEq L] {geo : A → Geometry K L O} {thresh : K} {mx : Nat}
    {lnds : List L} {ocns : List O} (hl : lnds.Nodup) (ho : ocns.Nodup) (nest : A → Bool) (atms : List A)
    {xo : List (A × O × K)} {xl : List (A × L × K)} (h : xgrid geo thresh mx lnds ocns atms = .ok (xo, xl)) :
    (∀ o ∈ ocns, parentArea nest xo o = total atms (fun a => if nest a then 0 else ocnArea (geo a) thresh o))
    ∧ (∀ l ∈ lnds, parentArea nest xl l
        = total atms (fun a => if nest a then 0 else lndArea (geo a) thresh ocns l)) := by
  have key : (∀ o ∈ ocns, total xo (fun e => if nest e.1 = false ∧ e.2.1 = o then e.2.2 else 0)
        = total atms (fun a => if nest a then 0 else ocnArea (geo a) thresh o))
      ∧ (∀ l ∈ lnds, total xl (fun e => if nest e.1 = false ∧ e.2.1 = l then e.2.2 else 0)
        = total atms (fun a => if nest a then 0 else lndArea (geo a) thresh ocns l)) := by
    induction atms generalizing xo xl with
    | nil =>
      simp only [xgrid, Except.ok.injEq, Prod.mk.injEq] at h
      obtain ⟨rfl, rfl⟩ := h
      simp [total_nil]
    | cons a as ih =>
      unfold xgrid at h
      cases hc : cellXgrid (geo a) thresh mx lnds ocns with
      | error e => rw [hc] at h; cases h
      | ok r =>
        obtain ⟨axo, axl⟩ := r
        rw [hc] at h
        cases hx : xgrid geo thresh mx lnds ocns as with
        | error e => rw [hx] at h; cases h
        | ok r =>
          obtain ⟨xo', xl'⟩ := r
          rw [hx] at h
          simp only [bind, Except.bind, pure, Except.pure, Except.ok.injEq, Prod.mk.injEq] at h
          obtain ⟨rfl, rfl⟩ := h
          obtain ⟨h1, h2⟩ := ih hx
          obtain ⟨e1, e2⟩ := cellXgrid_eq hc
          constructor
          · intro o hoo
            rw [total_append, total_entries, h1 o hoo, total_cons, e1, areaOf_axo _ _ ho, if_pos hoo]
          · intro l hll
            rw [total_append, total_entries, h2 l hll, total_cons, e2, areaOf_axl _ _ _ hl, if_pos hll]
  refine ⟨fun o h => ?_, fun l h => ?_⟩
  · rw [← key.1 o h]; unfold parentArea; rw [parentArea_eq, zero_add]
  · rw [← key.2 l h]; unfold parentArea; rw [parentArea_eq, zero_add]

/-! ### Centroids -/

theorem sums_eq {P : Type} [DecidableEq P] (xs : List (XCell K P)) (s : (P → K) × (P → K)) (p : P) :
    ((xs.foldl (fun s e => if e.counted then
      (Function.update s.1 e.parent (s.1 e.parent + e.area), Function.update s.2 e.parent (s.2 e.parent + e.moment))
    else s) s).1 p = s.1 p + total xs (fun e => if e.counted = true ∧ e.parent = p then e.area else 0))
    ∧ ((xs.foldl (fun s e => if e.counted then
      (Function.update s.1 e.parent (s.1 e.parent + e.area), Function.update s.2 e.parent (s.2 e.parent + e.moment))
    else s) s).2 p = s.2 p + total xs (fun e => if e.counted = true ∧ e.parent = p then e.moment else 0)) := by
  induction xs generalizing s with
  | nil => simp [total_nil]
  | cons e es ih =>
    rw [List.foldl_cons, (ih _).1, (ih _).2, total_cons, total_cons]
    cases hc : e.counted with
    | false => simp
    | true =>
      by_cases hp : e.parent = p
      · subst hp
        simp only [if_true, Function.update_self, true_and, and_self]
        exact ⟨by ring, by ring⟩
      · simp only [if_true, Function.update_of_ne (Ne.symm hp), true_and, hp, if_false, zero_add, and_self]

end Verif.CouplerTile
