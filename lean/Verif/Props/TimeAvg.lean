import Verif.Model.TimeAvg
import Verif.Spec.TimeAvg
import Mathlib.Tactic.Linarith
import Mathlib.Tactic.FieldSimp
import Mathlib.Tactic.Ring
import Mathlib.Tactic.NormNum
import Mathlib.Algebra.Order.Floor.Ring
import Mathlib.Algebra.Order.BigOperators.Group.List
/-
C40: time averages.
-/
namespace Verif.TimeAvg
open Verif.Spec
variable {K : Type*} [Field K] [LinearOrder K] [IsStrictOrderedRing K]
variable {P : Type*}

/-- The data at one point with their weights: the length of the time bounds, or 1. -/
def File.series (f : File P K) (p : P) : List (K × K) :=
  f.levels.map fun l => (if f.hasBounds then l.b2 - l.b1 else 1, l.data p)

/-! ### Lemmas -/

theorem fold_weighted (m : K) (n : Nat) (w : Level P K → K) (p : P) (ls : List (Level P K)) (a : Acc P K) :
    let r := ls.foldl (fun a l => addLevel true (some m) n (w l) l.data a) a
    r.sum p = a.sum p + ((valid m (ls.map fun l => (w l, l.data p))).map fun q => q.1 * q.2).sum ∧
      r.wt p = a.wt p + totalWeight (valid m (ls.map fun l => (w l, l.data p))) ∧
      r.wtMax = a.wtMax + totalWeight (ls.map fun l => (w l, l.data p)) := by
  induction ls generalizing a with
  | nil => simp [valid, totalWeight]
  | cons l ls ih =>
    obtain ⟨h1, h2, h3⟩ := ih (addLevel true (some m) n (w l) l.data a)
    simp only [List.foldl_cons] at *
    rw [h1, h2, h3]
    by_cases hd : l.data p = m
    · simp [addLevel, valid, totalWeight, hd]
      ring
    · simp [addLevel, valid, totalWeight, hd]
      refine ⟨by ring, by ring, by ring⟩

theorem fold_plain (miss : Option K) (n : Nat) (hn : n ≠ 1) (w : Level P K → K) (p : P) (ls : List (Level P K))
    (a : Acc P K) :
    let r := ls.foldl (fun a l => addLevel false miss n (w l) l.data a) a
    r.sum p = a.sum p + ((ls.map fun l => (w l, l.data p)).map fun q => q.1 * q.2).sum ∧
      r.wtMax = a.wtMax + totalWeight (ls.map fun l => (w l, l.data p)) := by
  induction ls generalizing a with
  | nil => simp [totalWeight]
  | cons l ls ih =>
    obtain ⟨h1, h2⟩ := ih (addLevel false miss n (w l) l.data a)
    simp only [List.foldl_cons] at *
    rw [h1, h2]
    simp [addLevel, hn, totalWeight]
    refine ⟨by ring, by ring⟩

theorem series_eq (f : File P K) (p : P) : f.series p = f.levels.map fun l => ((f.tavg l).2.2, l.data p) := by
  unfold File.series File.tavg
  apply List.map_congr_left
  intro l _
  split <;> rfl

/-! ### The records -/

/-- C40. A variable with missing value `m`, when the first file has several time levels: each file gives one record,
and at each point it is the weighted mean of the valid data if their weight exceeds the wanted fraction of the whole,
else the missing value. The fraction is the one asked for, limited to 0 below and `1 - small` above. -/
theorem C40_record (m frac small : K) (old : P → K) (f0 : File P K) (fs : List (File P K))
    (h : f0.levels.length > 1) :
    ∃ out, timeAverage (some m) frac small old (f0 :: fs) = out ∧ out.length = fs.length + 1 ∧
      ∀ (k : Nat) (f : File P K) (r : P → K), (f0 :: fs)[k]? = some f → out[k]? = some r → ∀ p,
        r p = if totalWeight (valid m (f.series p)) > max (min frac (1 - small)) 0 * totalWeight (f.series p)
          then weightedMean (valid m (f.series p)) else m := by
  refine ⟨_, rfl, by simp [timeAverage], ?_⟩
  intro k f r hf hr p
  have hw : useDataWt (some m) (f0 :: fs) = true := by simp [useDataWt, h]
  unfold timeAverage at hr
  rw [List.getElem?_map, hf, hw] at hr
  simp only [Option.map_some, Option.some.injEq] at hr
  subst hr
  obtain ⟨h1, h2, h3⟩ := fold_weighted m f.levels.length (fun l => (f.tavg l).2.2) p f.levels Acc.zero
  rw [← series_eq] at h1 h2 h3
  unfold average sums weightedMean
  simp only [if_true]
  rw [h1, h2, h3]
  simp [Acc.zero]

/-- C40. A variable without missing value: the weighted mean of all levels, and of one level its data. -/
theorem C40_record_no_missing (frac small : K) (old : P → K) (files : List (File P K)) :
    ∃ out, timeAverage none frac small old files = out ∧ out.length = files.length ∧
      ∀ (k : Nat) (f : File P K) (r : P → K), files[k]? = some f → out[k]? = some r → ∀ p,
        (f.levels.length ≠ 1 → r p = weightedMean (f.series p)) ∧ ∀ l, f.levels = [l] → r p = l.data p := by
  refine ⟨_, rfl, by simp [timeAverage], ?_⟩
  intro k f r hf hr p
  have hw : useDataWt (none : Option K) files = false := by cases files <;> simp [useDataWt]
  unfold timeAverage at hr
  rw [List.getElem?_map, hf, hw] at hr
  simp only [Option.map_some, Option.some.injEq] at hr
  subst hr
  constructor
  · intro hn
    obtain ⟨h1, h2⟩ := fold_plain none f.levels.length hn (fun l => (f.tavg l).2.2) p f.levels Acc.zero
    rw [← series_eq] at h1 h2
    unfold average sums weightedMean
    simp only [if_neg hn, Bool.false_eq_true, if_false]
    rw [h1, h2]
    simp [Acc.zero]
  · intro l hl
    unfold average sums
    simp [hl, addLevel]

/-! ### What the records mean -/

theorem mean_bounds (l : List (K × K)) (a b : K) (hw : ∀ p ∈ l, 0 ≤ p.1) (ha : ∀ p ∈ l, a ≤ p.2) (hb : ∀ p ∈ l, p.2 ≤ b) :
    a * totalWeight l ≤ (l.map fun p => p.1 * p.2).sum ∧ (l.map fun p => p.1 * p.2).sum ≤ b * totalWeight l := by
  induction l with
  | nil => simp [totalWeight]
  | cons q l ih =>
    obtain ⟨i1, i2⟩ := ih (fun p hp => hw p (by simp [hp])) (fun p hp => ha p (by simp [hp])) (fun p hp => hb p (by simp [hp]))
    have w := hw q (by simp)
    have A := ha q (by simp)
    have B := hb q (by simp)
    simp only [totalWeight, List.map_cons, List.sum_cons] at *
    constructor
    · nlinarith
    · nlinarith

theorem C40_between (l : List (K × K)) (a b : K) (hw : ∀ p ∈ l, 0 ≤ p.1) (ht : 0 < totalWeight l) (ha : ∀ p ∈ l, a ≤ p.2)
    (hb : ∀ p ∈ l, p.2 ≤ b) : a ≤ weightedMean l ∧ weightedMean l ≤ b := by
  obtain ⟨h1, h2⟩ := mean_bounds l a b hw ha hb
  unfold weightedMean
  rw [le_div_iff₀ ht, div_le_iff₀ ht]
  exact ⟨h1, h2⟩

theorem totalWeight_nonneg (l : List (K × K)) (hw : ∀ p ∈ l, 0 ≤ p.1) : 0 ≤ totalWeight l := by
  unfold totalWeight
  apply List.sum_nonneg
  intro x hx
  obtain ⟨p, hp, rfl⟩ := List.mem_map.1 hx
  exact hw p hp

/-- C40. With weights that are not negative every record lies between the smallest and largest valid value at the
point, or is missing; constant valid data are preserved, and where all data are valid the record is not missing. -/
theorem C40_range (m frac small : K) (old : P → K) (f0 : File P K) (fs : List (File P K)) (h : f0.levels.length > 1)
    (k : Nat) (f : File P K) (r : P → K) (hf : (f0 :: fs)[k]? = some f)
    (hr : (timeAverage (some m) frac small old (f0 :: fs))[k]? = some r) (hw : ∀ p, ∀ q ∈ f.series p, 0 ≤ q.1) (p : P) :
    (∀ a b : K, (∀ l ∈ f.levels, l.data p ≠ m → a ≤ l.data p ∧ l.data p ≤ b) → r p = m ∨ (a ≤ r p ∧ r p ≤ b)) ∧
    (∀ c : K, (∀ l ∈ f.levels, l.data p ≠ m → l.data p = c) → r p = m ∨ r p = c) ∧
    (0 < small → 0 < totalWeight (f.series p) → (∀ l ∈ f.levels, l.data p ≠ m) → r p = weightedMean (f.series p)) := by
  obtain ⟨out, ho, -, hrec⟩ := C40_record m frac small old f0 fs h
  subst ho
  have e := hrec k f r hf hr p
  have hv : ∀ q ∈ valid m (f.series p), ∃ l ∈ f.levels, l.data p ≠ m ∧ q.2 = l.data p ∧ 0 ≤ q.1 := by
    intro q hq
    obtain ⟨hq1, hq2⟩ := List.mem_filter.1 hq
    have h0 := hw p q hq1
    obtain ⟨l, hl, rfl⟩ := List.mem_map.1 hq1
    exact ⟨l, hl, by simpa using hq2, rfl, h0⟩
  have h0 : 0 ≤ max (min frac (1 - small)) 0 * totalWeight (f.series p) :=
    mul_nonneg (le_max_right _ _) (totalWeight_nonneg _ (hw p))
  have first : ∀ a b : K, (∀ l ∈ f.levels, l.data p ≠ m → a ≤ l.data p ∧ l.data p ≤ b) → r p = m ∨ (a ≤ r p ∧ r p ≤ b) := by
    intro a b hab
    split at e
    · rename_i hgt
      right
      rw [e]
      apply C40_between
      · intro q hq; obtain ⟨l, -, -, -, h⟩ := hv q hq; exact h
      · exact lt_of_le_of_lt h0 hgt
      · intro q hq; obtain ⟨l, hl, hm, h, -⟩ := hv q hq; rw [h]; exact (hab l hl hm).1
      · intro q hq; obtain ⟨l, hl, hm, h, -⟩ := hv q hq; rw [h]; exact (hab l hl hm).2
    · exact .inl e
  refine ⟨first, ?_, ?_⟩
  · intro c hc
    rcases first c c (fun l hl hm => by rw [hc l hl hm]; exact ⟨le_rfl, le_rfl⟩) with h | ⟨h1, h2⟩
    · exact .inl h
    · exact .inr (le_antisymm h2 h1)
  · intro hs ht hall
    have hvs : valid m (f.series p) = f.series p := by
      apply List.filter_eq_self.2
      intro q hq
      obtain ⟨l, hl, rfl⟩ := List.mem_map.1 hq
      simpa using hall l hl
    rw [hvs] at e
    rw [e, if_pos]
    have : max (min frac (1 - small)) 0 < 1 := by
      rw [max_lt_iff]
      refine ⟨lt_of_le_of_lt (min_le_right _ _) (by linarith), one_pos⟩
    nlinarith

/-- C40. For a wanted fraction from 0 to `1 - small` and positive weight: the record is missing exactly where the
fraction of the weight with valid data is not above it (if no average happens to equal the missing value). -/
theorem C40_fraction (m frac small : K) (old : P → K) (f0 : File P K) (fs : List (File P K)) (h : f0.levels.length > 1)
    (k : Nat) (f : File P K) (r : P → K) (hf : (f0 :: fs)[k]? = some f)
    (hr : (timeAverage (some m) frac small old (f0 :: fs))[k]? = some r) (p : P) (h0 : 0 ≤ frac) (h1 : frac ≤ 1 - small)
    (ht : 0 < totalWeight (f.series p)) :
    (totalWeight (valid m (f.series p)) / totalWeight (f.series p) ≤ frac → r p = m) ∧
    (frac < totalWeight (valid m (f.series p)) / totalWeight (f.series p) → r p = weightedMean (valid m (f.series p))) := by
  obtain ⟨out, ho, -, hrec⟩ := C40_record m frac small old f0 fs h
  subst ho
  have e := hrec k f r hf hr p
  rw [min_eq_left h1, max_eq_left h0] at e
  constructor
  · intro hle
    rw [div_le_iff₀ ht] at hle
    rw [e, if_neg (not_lt.2 hle)]
  · intro hgt
    rw [lt_div_iff₀ ht] at hgt
    rw [e, if_pos hgt]

/-! ### Averages of averages -/

/-- The bounds of the levels follow each other. -/
def Contiguous : List (Level P K) → Prop
  | [] => True
  | [_] => True
  | a :: b :: l => a.b2 = b.b1 ∧ Contiguous (b :: l)

theorem contiguous_weight (a : Level P K) (ls : List (Level P K)) (h : Contiguous (a :: ls)) (p : P) :
    totalWeight ((a :: ls).map fun l => (l.b2 - l.b1, l.data p)) = ((a :: ls).getLast (by simp)).b2 - a.b1 := by
  induction ls generalizing a with
  | nil => simp [totalWeight]
  | cons b ls ih =>
    obtain ⟨hab, hrest⟩ := h
    have := ih b hrest
    simp only [totalWeight, List.map_cons, List.sum_cons] at this ⊢
    have hlast : (a :: b :: ls).getLast (by simp) = (b :: ls).getLast (by simp) := List.getLast_cons (by simp)
    rw [this, hlast, hab]
    ring

/-- The level that is written for a file: its bounds are the time bounds, its data the average. -/
def File.Summary (f : File P K) (r : P → K) (l : Level P K) : Prop :=
  f.timeBounds = some (l.b1, l.b2) ∧ l.data = r

/-- C40. Without missing values averaging in two stages is the same as in one: if each of the files has contiguous time
bounds with positive length, then the average of their averages is the average of all their levels. -/
theorem C40_two_stages (frac small : K) (old : P → K) (files : List (File P K)) (ls : List (Level P K))
    (hb : ∀ f ∈ files, f.hasBounds = true ∧ f.levels ≠ [] ∧ Contiguous f.levels ∧ ∀ l ∈ f.levels, l.b1 < l.b2)
    (hl : List.Forall₂ (fun (fr : File P K × (P → K)) l => fr.1.Summary fr.2 l)
      (files.zip (timeAverage none frac small old files)) ls)
    (hn : 2 ≤ files.length) :
    timeAverage none frac small old [⟨true, ls⟩] = timeAverage none frac small old [⟨true, files.flatMap (·.levels)⟩] := by
  obtain ⟨out, ho, hlen, hrec⟩ := C40_record_no_missing frac small old files
  have key : ∀ (fs : List (File P K)) (out : List (P → K)) (ls : List (Level P K)), fs.length = out.length →
      (∀ f ∈ fs, f.hasBounds = true ∧ f.levels ≠ [] ∧ Contiguous f.levels ∧ ∀ l ∈ f.levels, l.b1 < l.b2) →
      (∀ (k : Nat) (f : File P K) (r : P → K), fs[k]? = some f → out[k]? = some r → ∀ p,
        (f.levels.length ≠ 1 → r p = weightedMean (f.series p)) ∧ ∀ l, f.levels = [l] → r p = l.data p) →
      List.Forall₂ (fun (fr : File P K × (P → K)) l => fr.1.Summary fr.2 l) (fs.zip out) ls →
      fs.length = ls.length ∧ fs.length ≤ (fs.flatMap (·.levels)).length ∧ ∀ p : P,
        totalWeight (ls.map fun l => (l.b2 - l.b1, l.data p)) =
          totalWeight ((fs.flatMap (·.levels)).map fun l => (l.b2 - l.b1, l.data p)) ∧
        ((ls.map fun l => (l.b2 - l.b1, l.data p)).map fun q => q.1 * q.2).sum =
          (((fs.flatMap (·.levels)).map fun l => (l.b2 - l.b1, l.data p)).map fun q => q.1 * q.2).sum := by
    intro fs
    induction fs with
    | nil =>
      intro out ls h1 h2 h3 h4
      cases h4
      simp [totalWeight]
    | cons f fs ih =>
      intro out ls h1 h2 h3 h4
      cases out with
      | nil => simp at h1
      | cons r out =>
        rw [List.zip_cons_cons] at h4
        cases h4 with
        | @cons _ l _ ls h4 h5 =>
          obtain ⟨i1, i2, i3⟩ := ih out ls (by simpa using h1) (fun f hf => h2 f (by simp [hf]))
            (fun k f r hf hr => h3 (k + 1) f r (by simpa using hf) (by simpa using hr)) h5
          obtain ⟨f1, f2, f3, f4⟩ := h2 f (by simp)
          have e := h3 0 f r (by simp) (by simp)
          obtain ⟨t1, t2⟩ := h4
          simp only at t1 t2
          obtain ⟨a, as, has⟩ : ∃ a as, f.levels = a :: as := by
            cases hf : f.levels with
            | nil => exact absurd hf f2
            | cons a as => exact ⟨a, as, rfl⟩
          have hwt : ∀ p, totalWeight (f.levels.map fun l => (l.b2 - l.b1, l.data p)) = l.b2 - l.b1 := by
            intro p
            rw [has]
            rw [has] at f3
            rw [contiguous_weight a as f3 p]
            unfold File.timeBounds at t1
            rw [has] at t1
            simp only [List.head?_cons, List.getLast?_eq_getLast_of_ne_nil (List.cons_ne_nil a as), File.tavg, f1, if_true,
              Option.some.injEq, Prod.mk.injEq] at t1
            rw [← t1.1, ← t1.2]
          have hpos : ∀ p, 0 < totalWeight (f.levels.map fun l => (l.b2 - l.b1, l.data p)) := by
            intro p
            unfold totalWeight
            apply List.sum_pos
            · intro x hx
              simp only [List.map_map, List.mem_map, Function.comp] at hx
              obtain ⟨l, hl, rfl⟩ := hx
              linarith [f4 l hl]
            · simp [has]
          have hser : ∀ p, f.series p = f.levels.map fun l => (l.b2 - l.b1, l.data p) := by
            intro p; unfold File.series; simp [f1]
          have hsum : ∀ p, (l.b2 - l.b1) * l.data p =
              ((f.levels.map fun l => (l.b2 - l.b1, l.data p)).map fun q => q.1 * q.2).sum := by
            intro p
            rw [t2]
            by_cases hone : f.levels.length = 1
            · obtain ⟨l', hl'⟩ := List.length_eq_one_iff.1 hone
              rw [(e p).2 l' hl', ← hwt p, hl']
              simp [totalWeight]
            · rw [(e p).1 hone, hser p]
              unfold weightedMean
              rw [← hwt p]
              have := (hpos p).ne'
              field_simp
          refine ⟨by simp [i1], ?_, ?_⟩
          · simp only [List.flatMap_cons, List.length_append, List.length_cons]
            have : 1 ≤ f.levels.length := by rw [has]; simp
            omega
          · intro p
            obtain ⟨j1, j2⟩ := i3 p
            have w := hwt p
            have s := hsum p
            simp only [totalWeight, List.flatMap_cons, List.map_append, List.map_cons, List.sum_cons, List.sum_append]
              at j1 j2 w s ⊢
            rw [j1, j2, w, s]
            exact ⟨rfl, rfl⟩
  rw [ho] at hl
  obtain ⟨k1, k2, k3⟩ := key files out ls hlen.symm hb hrec hl
  obtain ⟨o1, p1, q1, r1⟩ := C40_record_no_missing frac small old [(⟨true, ls⟩ : File P K)]
  obtain ⟨o2, p2, q2, r2⟩ := C40_record_no_missing frac small old [(⟨true, files.flatMap (·.levels)⟩ : File P K)]
  rw [p1, p2]
  obtain ⟨x, rfl⟩ := List.length_eq_one_iff.1 q1
  obtain ⟨y, rfl⟩ := List.length_eq_one_iff.1 q2
  congr 1
  funext p
  rw [(r1 0 _ x rfl rfl p).1 (by simp only; omega), (r2 0 _ y rfl rfl p).1 (by simp only; omega)]
  unfold weightedMean File.series
  simp only [if_true]
  rw [(k3 p).1, (k3 p).2]

/-! ### Integers and times -/

/-- C40. An average stored as an integer is rounded to the nearest integer. -/
theorem C40_integer [FloorRing K] (miss : Option K) (x : K) (h : ∀ m, miss = some m → x ≠ m) :
    |(toInteger miss x : K) - x| ≤ 1 / 2 := by
  have key : |((if x + (if x < 0 then -(1 / 2) else 1 / 2) < 0 then ⌈x + (if x < 0 then -(1 / 2) else 1 / 2)⌉
      else ⌊x + (if x < 0 then -(1 / 2) else 1 / 2)⌋ : Int) : K) - x| ≤ 1 / 2 := by
    rw [abs_le]
    by_cases hx : x < 0
    · simp only [if_pos hx]
      rw [if_pos (by linarith)]
      have h1 := Int.le_ceil (x + -(1 / 2))
      have h2 := Int.ceil_lt_add_one (x + -(1 / 2))
      constructor <;> linarith
    · simp only [if_neg hx]
      rw [if_neg (by linarith [not_lt.1 hx])]
      have h1 := Int.floor_le (x + 1 / 2)
      have h2 := Int.lt_floor_add_one (x + 1 / 2)
      constructor <;> linarith
  unfold toInteger
  cases miss with
  | none => exact key
  | some m => simp only [if_pos (h m rfl)]; exact key

/-- C40. An integer missing value is written unchanged. -/
theorem C40_integer_missing [FloorRing K] (z : Int) : toInteger (some (z : K)) (z : K) = z := by
  unfold toInteger
  simp

/-- C40. The time of a record with time bounds that follow each other: the middle of the whole period, or with
`use_end_time` the time of the last level. -/
theorem C40_time (f : File P K) (a b : Level P K) (ha : f.levels.head? = some a) (hb : f.levels.getLast? = some b)
    (hf : f.hasBounds = true) : f.timeBounds = some (a.b1, b.b2) ∧ f.timeOut true false true = some b.time ∧
      f.timeOut false false true = some ((a.b1 + b.b2) / 2) := by
  have : f.timeBounds = some (a.b1, b.b2) := by unfold File.timeBounds File.tavg; simp [ha, hb, hf]
  refine ⟨this, ?_, ?_⟩
  · unfold File.timeOut; simp [this, hb]
  · unfold File.timeOut; simp only [this, hb]; simp; ring

/-! ### Where the claim fails, and examples -/

/-- A file with two levels: 1 day with the data 4 and 3 days with the data 8. -/
def exFile : File Unit ℚ := ⟨true, [⟨1, 0, 1, fun _ => 4⟩, ⟨4, 1, 4, fun _ => 8⟩]⟩

/-- A case of `C40_record`, `C40_range`: the mean is 7; where 8 is the missing value it is 4; and if half of the period
must be valid it is missing. -/
example : (timeAverage (some (-1)) 0 (1 / 10 ^ 6) (fun _ => 0) [exFile]).map (· ()) = [7] ∧
    (timeAverage (some 8) 0 (1 / 10 ^ 6) (fun _ => 0) [exFile]).map (· ()) = [4] ∧
    (timeAverage (some 8) (1 / 2) (1 / 10 ^ 6) (fun _ => 0) [exFile]).map (· ()) = [8] := by
  decide +kernel

/-- A case of `C40_two_stages`: the file of above and a file with one level of 4 days. -/
example : (timeAverage none 0 (1 / 10 ^ 6) (fun _ => 0) [exFile, ⟨true, [⟨8, 4, 8, fun _ => 1⟩]⟩]).map (· ()) = [7, 1] ∧
    (timeAverage none 0 (1 / 10 ^ 6) (fun _ => 0) [(⟨true, [⟨4, 0, 4, fun _ => 7⟩, ⟨8, 4, 8, fun _ => 1⟩]⟩ : File Unit ℚ)]).map
      (· ()) = [4] := by
  decide +kernel

/-- C40 fails when the first file has one level: for the second file, with two levels, the missing value 100 is averaged
as if it were valid. -/
theorem C40_first_single_wrong : ∃ f0 f1 : File Unit ℚ, f0.levels.length = 1 ∧
    (timeAverage (some 100) 0 (1 / 10 ^ 6) (fun _ => 0) [f0, f1]).map (· ()) = [5, 75] ∧
    valid 100 (f1.series ()) = [(1, 0)] :=
  ⟨⟨true, [⟨1, 0, 1, fun _ => 5⟩]⟩, ⟨true, [⟨2, 1, 2, fun _ => 0⟩, ⟨5, 2, 5, fun _ => 100⟩]⟩, by decide +kernel⟩

/-- A level whose time bounds coincide (an instantaneous value) is lost if it is alone in a later file, although it is
kept if it is alone in the first. -/
theorem C40_instant_wrong : ∃ f : File Unit ℚ, f.series () = [(0, 5)] ∧
    (timeAverage (some 100) 0 (1 / 10 ^ 6) (fun _ => 0) [exFile, f]).map (· ()) = [7, 100] ∧
    (timeAverage (some 100) 0 (1 / 10 ^ 6) (fun _ => 0) [f]).map (· ()) = [5] :=
  ⟨⟨true, [⟨1, 1, 1, fun _ => 5⟩]⟩, by decide +kernel⟩

/-- Without time bounds the branch for equal intervals is never reached (`do_avg` of a variable is set for every variable
with a time axis): the time bounds are written as 1 and 1, and without `use_end_time` the time of every record is 1. -/
theorem C40_no_bounds_wrong (f : File P K) (h : f.hasBounds = false) (hn : f.levels ≠ []) :
    f.timeBounds = some (1, 1) ∧ f.timeOut false false false = some 1 := by
  obtain ⟨a, as, has⟩ : ∃ a as, f.levels = a :: as := by
    cases hf : f.levels with
    | nil => exact absurd hf hn
    | cons a as => exact ⟨a, as, rfl⟩
  have hlast := List.getLast?_eq_getLast_of_ne_nil (List.cons_ne_nil a as)
  have : f.timeBounds = some (1, 1) := by
    unfold File.timeBounds File.tavg; rw [has]; simp [h, hlast]
  refine ⟨this, ?_⟩
  unfold File.timeOut
  rw [this, has, hlast]
  simp only [Bool.false_eq_true, if_false]
  norm_num

end Verif.TimeAvg
