import Verif.Spec.Compress
import Verif.Lemmas.NcArray
import Mathlib.Tactic.Ring
import Mathlib.Tactic.Linarith
/-
Helper lemmas about compression by gathering.
-/
namespace Verif.Compress
open Spec

theorem linF_lt : ∀ {ds idx : List Nat}, InBox ds idx → linF ds idx < ds.prod := by
  intro ds
  induction ds with
  | nil => intro idx h; rw [InBox.nil_iff] at h; subst h; simp [linF]
  | cons d ds ih =>
    intro idx h
    obtain ⟨i, is, rfl, h1, h2⟩ := InBox.cons_iff.1 h
    have := ih h2
    simp only [linF, List.prod_cons]
    nlinarith

theorem linF_inj : ∀ {ds a b : List Nat}, InBox ds a → InBox ds b → linF ds a = linF ds b → a = b := by
  intro ds
  induction ds with
  | nil => intro a b ha hb _; rw [InBox.nil_iff] at ha hb; rw [ha, hb]
  | cons d ds ih =>
    intro a b ha hb h
    obtain ⟨i, is, rfl, h1, h2⟩ := InBox.cons_iff.1 ha
    obtain ⟨j, js, rfl, h3, h4⟩ := InBox.cons_iff.1 hb
    simp only [linF] at h
    have e1 := congrArg (· % d) h
    simp only [Nat.add_mul_mod_self_left, Nat.mod_eq_of_lt h1, Nat.mod_eq_of_lt h3] at e1
    subst e1
    have hd : 0 < d := by omega
    have e2 : linF ds is = linF ds js := by
      have : d * linF ds is = d * linF ds js := by omega
      exact Nat.eq_of_mul_eq_mul_left hd this
    rw [ih h2 h4 e2]

/-- Every position belongs to an index vector. -/
theorem linF_surj : ∀ {ds : List Nat} {n : Nat}, n < ds.prod → ∃ i, InBox ds i ∧ linF ds i = n := by
  intro ds
  induction ds with
  | nil => intro n h; simp at h; subst h; exact ⟨[], InBox.nil_iff.2 rfl, rfl⟩
  | cons d ds ih =>
    intro n h
    rw [List.prod_cons] at h
    have hd : 0 < d := by
      rcases Nat.eq_zero_or_pos d with h0 | h0
      · subst h0; simp at h
      · exact h0
    obtain ⟨is, hb, hl⟩ := ih (n := n / d) (Nat.div_lt_of_lt_mul h)
    refine ⟨n % d :: is, InBox.cons_iff.2 ⟨_, _, rfl, Nat.mod_lt _ hd, hb⟩, ?_⟩
    rw [linF, hl]
    exact Nat.mod_add_div n d

theorem inBox_zero (dims : List CDim) (h : WellFormed dims) :
    InBox (fileDims dims) (dims.map fun _ => 0) := by
  induction dims with
  | nil => exact InBox.nil_iff.2 rfl
  | cons d ds ih =>
    refine InBox.cons_iff.2 ⟨0, _, rfl, (h d (by simp)).1, ?_⟩
    exact ih (fun d' hd' => h d' (by simp [hd']))

theorem linF_zero (dims : List CDim) : linF (fileDims dims) (dims.map fun _ => 0) = 0 := by
  induction dims with
  | nil => rfl
  | cons d ds ih =>
    show 0 + d.len * linF (fileDims ds) (ds.map fun _ => 0) = 0
    rw [ih]; simp

/-- The odometer: the next index vector has the next position. -/
theorem incr_spec : ∀ (dims : List CDim) (stride : Nat) (idx : List Nat),
    InBox (fileDims dims) idx → linF (fileDims dims) idx + 1 < (fileDims dims).prod →
    InBox (fileDims dims) (incr (dimInfos stride dims) idx) ∧
    linF (fileDims dims) (incr (dimInfos stride dims) idx) = linF (fileDims dims) idx + 1 := by
  intro dims
  induction dims with
  | nil => intro stride idx _ h; simp [fileDims, linF] at h
  | cons d ds ih =>
    intro stride idx hb h
    have hb' : InBox (d.len :: fileDims ds) idx := hb
    obtain ⟨i, is, rfl, h1, h2⟩ := InBox.cons_iff.1 hb'
    have h' : i + d.len * linF (fileDims ds) is + 1 < d.len * (fileDims ds).prod := h
    show InBox (d.len :: fileDims ds) _ ∧ linF (d.len :: fileDims ds) _ = _
    simp only [dimInfos, incr]
    by_cases hlt : i + 1 < d.len
    · rw [if_pos hlt]
      refine ⟨InBox.cons_iff.2 ⟨_, _, rfl, hlt, h2⟩, ?_⟩
      show i + 1 + d.len * linF (fileDims ds) is = i + d.len * linF (fileDims ds) is + 1
      omega
    · rw [if_neg hlt]
      have hi : i + 1 = d.len := by omega
      have hlt2 : linF (fileDims ds) is + 1 < (fileDims ds).prod := by
        have : d.len * (linF (fileDims ds) is + 1) < d.len * (fileDims ds).prod := by
          rw [Nat.mul_add]; omega
        exact Nat.lt_of_mul_lt_mul_left this
      obtain ⟨g1, g2⟩ := ih (stride * d.gsize) is h2 hlt2
      refine ⟨InBox.cons_iff.2 ⟨_, _, rfl, by omega, g1⟩, ?_⟩
      show 0 + d.len * linF (fileDims ds) _ = i + d.len * linF (fileDims ds) is + 1
      rw [g2, Nat.mul_add]; omega

theorem wf_tail {d : CDim} {ds : List CDim} (h : WellFormed (d :: ds)) : WellFormed ds :=
  fun d' hd' => h d' (by simp [hd'])

/-- The grid point is on the grid. -/
theorem pointOf_inBox : ∀ (dims : List CDim) (idx g : List Nat), WellFormed dims →
    InBox (fileDims dims) idx → pointOf dims idx = some g → InBox (gridDims dims) g := by
  intro dims
  induction dims with
  | nil =>
    intro idx g _ hb h
    have hb' : InBox [] idx := hb
    rw [InBox.nil_iff] at hb'
    subst hb'
    simp only [pointOf, Option.some.injEq] at h
    subst h
    exact InBox.nil_iff.2 rfl
  | cons d ds ih =>
    intro idx g hw hb h
    have hb' : InBox (d.len :: fileDims ds) idx := hb
    obtain ⟨k, ks, rfl, h1, h2⟩ := InBox.cons_iff.1 hb'
    show InBox (d.gsize :: gridDims ds) g
    unfold pointOf at h
    cases hc : d.comp with
    | none =>
      simp only [hc] at h
      obtain ⟨t, ht, rfl⟩ := Option.map_eq_some_iff.1 h
      refine InBox.cons_iff.2 ⟨k, t, rfl, ?_, ih ks t (wf_tail hw) h2 ht⟩
      unfold CDim.gsize; rw [hc]; exact h1
    | some p =>
      obtain ⟨ix, n⟩ := p
      simp only [hc] at h
      split at h
      · rename_i v hv
        split at h
        · rename_i h0
          obtain ⟨t, ht, rfl⟩ := Option.map_eq_some_iff.1 h
          refine InBox.cons_iff.2 ⟨v.toNat, t, rfl, ?_, ih ks t (wf_tail hw) h2 ht⟩
          unfold CDim.gsize; rw [hc]
          have := ((hw d (by simp)).2 ix n hc).2 v (List.mem_of_getElem? hv)
          simp only; omega
        · cases h
      · cases h

/-- The destination computed is the position of the grid point. -/
theorem dest_spec : ∀ (dims : List CDim) (stride : Nat) (idx : List Nat) (ii : Int),
    WellFormed dims → InBox (fileDims dims) idx →
    dest (dimInfos stride dims) idx ii =
      match pointOf dims idx with
      | none => .skip
      | some g => .at (ii + (stride * linF (gridDims dims) g : Nat)) := by
  intro dims
  induction dims with
  | nil =>
    intro stride idx ii _ hb
    have hb' : InBox [] idx := hb
    rw [InBox.nil_iff] at hb'
    subst hb'
    simp [dimInfos, dest, pointOf, gridDims, linF]
  | cons d ds ih =>
    intro stride idx ii hw hb
    have hb' : InBox (d.len :: fileDims ds) idx := hb
    obtain ⟨k, ks, rfl, h1, h2⟩ := InBox.cons_iff.1 hb'
    have step : ∀ (c : Nat), dest (dimInfos (stride * d.gsize) ds) ks (ii + (c : Int) * stride) =
        match (pointOf ds ks).map (c :: ·) with
        | none => .skip
        | some g => .at (ii + (stride * linF (gridDims (d :: ds)) g : Nat)) := by
      intro c
      rw [ih (stride * d.gsize) ks _ (wf_tail hw) h2]
      cases hp : pointOf ds ks with
      | none => rfl
      | some t =>
        simp only [Option.map_some]
        congr 1
        show _ = ii + ((stride * (c + d.gsize * linF (gridDims ds) t) : Nat) : Int)
        push_cast
        ring
    simp only [dimInfos]
    unfold dest pointOf
    cases hc : d.comp with
    | none =>
      simp only [Option.map_none]
      exact step k
    | some p =>
      obtain ⟨ix, n⟩ := p
      simp only [Option.map_some]
      have hlen := ((hw d (by simp)).2 ix n hc).1
      have hk : k < ix.length := by omega
      rw [List.getElem?_eq_getElem hk]
      simp only
      by_cases h0 : 0 ≤ ix[k]
      · rw [if_pos h0, if_pos h0]
        have := step (ix[k]).toNat
        rw [Int.toNat_of_nonneg h0] at this
        exact this
      · rw [if_neg h0, if_neg h0]

/-- What is known about the arrays after the values from index vector `idx` on have been stored. -/
theorem getLoop_spec {α : Type} (dims : List CDim) (hw : WellFormed dims) (buffer : List α)
    (hlen : buffer.length = (fileDims dims).prod) :
    ∀ (vs : List α) (idx : List Nat) (s : GetSt α),
      (vs ≠ [] → InBox (fileDims dims) idx ∧ vs = buffer.drop (linF (fileDims dims) idx)) →
      s.data.length = (gridDims dims).prod → s.mask.length = (gridDims dims).prod →
      s.hit.length = (gridDims dims).prod →
      ∃ r, getLoop (dimInfos 1 dims) vs idx s = some r ∧
        r.data.length = (gridDims dims).prod ∧ r.mask.length = (gridDims dims).prod ∧
        r.hit.length = (gridDims dims).prod ∧
        ∀ g, InBox (gridDims dims) g →
          (∀ i, vs ≠ [] → InBox (fileDims dims) i → linF (fileDims dims) idx ≤ linF (fileDims dims) i →
            pointOf dims i = some g →
            (∀ i', InBox (fileDims dims) i' → linF (fileDims dims) i < linF (fileDims dims) i' →
              pointOf dims i' ≠ some g) →
            r.data[linF (gridDims dims) g]? = buffer[linF (fileDims dims) i]? ∧
            r.mask[linF (gridDims dims) g]? = some true ∧
            r.hit[linF (gridDims dims) g]? = some true) ∧
          ((∀ i, vs ≠ [] → InBox (fileDims dims) i →
            linF (fileDims dims) idx ≤ linF (fileDims dims) i → pointOf dims i ≠ some g) →
            r.data[linF (gridDims dims) g]? = s.data[linF (gridDims dims) g]? ∧
            r.mask[linF (gridDims dims) g]? = s.mask[linF (gridDims dims) g]? ∧
            r.hit[linF (gridDims dims) g]? = s.hit[linF (gridDims dims) g]?) := by
  intro vs
  induction vs with
  | nil =>
    intro idx s _ h1 h2 h3
    refine ⟨s, rfl, h1, h2, h3, fun g _ => ⟨fun i h => absurd rfl h, fun _ => ⟨rfl, rfl, rfl⟩⟩⟩
  | cons v vs ih =>
    intro idx s hidx h1 h2 h3
    obtain ⟨hb, hvs⟩ := hidx (by simp)
    have hlt := linF_lt hb
    have hv : buffer[linF (fileDims dims) idx]? = some v := by
      have := congrArg (fun l => l[0]?) hvs
      simpa using this.symm
    -- the rest of the values
    have hrest : vs = buffer.drop (linF (fileDims dims) idx + 1) := by
      have := congrArg List.tail hvs
      simpa using this
    have hnext : vs ≠ [] → InBox (fileDims dims) (incr (dimInfos 1 dims) idx) ∧
        linF (fileDims dims) (incr (dimInfos 1 dims) idx) = linF (fileDims dims) idx + 1 := by
      intro hne
      apply incr_spec dims 1 idx hb
      by_contra hge
      apply hne
      rw [hrest]
      apply List.drop_eq_nil_of_le
      omega
    have hnext' : vs ≠ [] → InBox (fileDims dims) (incr (dimInfos 1 dims) idx) ∧
        vs = buffer.drop (linF (fileDims dims) (incr (dimInfos 1 dims) idx)) := by
      intro hne
      obtain ⟨g1, g2⟩ := hnext hne
      exact ⟨g1, by rw [g2]; exact hrest⟩
    -- index vectors after `idx` exist only if values are left
    have hafter : ∀ i, InBox (fileDims dims) i →
        linF (fileDims dims) idx < linF (fileDims dims) i → vs ≠ [] := by
      intro i hi hl hnil
      rw [hnil] at hrest
      have := congrArg List.length hrest
      simp only [List.length_nil, List.length_drop] at this
      have := linF_lt hi
      omega
    unfold getLoop
    rw [dest_spec dims 1 idx 1 hw hb]
    cases hp : pointOf dims idx with
    | none =>
      simp only
      obtain ⟨r, hr, l1, l2, l3, hg⟩ := ih (incr (dimInfos 1 dims) idx) s hnext' h1 h2 h3
      refine ⟨r, hr, l1, l2, l3, fun g hgb => ?_⟩
      obtain ⟨ga, gb⟩ := hg g hgb
      constructor
      · intro i _ hi hle hpi hlast
        rcases Nat.eq_or_lt_of_le hle with he | hl
        · have := linF_inj hb hi he
          rw [← this, hp] at hpi; cases hpi
        · have hne := hafter i hi hl
          exact ga i hne hi (by rw [(hnext hne).2]; omega) hpi hlast
      · intro hno
        apply gb
        intro i hne hi hle
        exact hno i (by simp) hi (by rw [(hnext hne).2] at hle; omega)
    | some q =>
      have hq := pointOf_inBox dims idx q hw hb hp
      have hql := linF_lt hq
      simp only
      have e : (1 + ((1 * linF (gridDims dims) q : Nat) : Int) - 1).toNat = linF (gridDims dims) q := by
        omega
      rw [if_pos (by omega), e, if_pos (by omega)]
      obtain ⟨r, hr, l1, l2, l3, hg⟩ := ih (incr (dimInfos 1 dims) idx)
        (s.put (linF (gridDims dims) q) v) hnext' (by simpa [GetSt.put] using h1)
        (by simpa [GetSt.put] using h2) (by simpa [GetSt.put] using h3)
      refine ⟨r, hr, l1, l2, l3, fun g hgb => ?_⟩
      obtain ⟨ga, gb⟩ := hg g hgb
      constructor
      · intro i _ hi hle hpi hlast
        rcases Nat.eq_or_lt_of_le hle with he | hl
        · have hii := linF_inj hb hi he
          subst hii
          rw [hp] at hpi
          cases hpi
          obtain ⟨b1, b2, b3⟩ := gb (by
            intro i' hne hi' hle' hpi'
            rw [(hnext hne).2] at hle'
            exact hlast i' hi' (by omega) hpi')
          rw [b1, b2, b3, hv]
          simp only [GetSt.put]
          rw [List.getElem?_set_self (by omega), List.getElem?_set_self (by omega),
            List.getElem?_set_self (by omega)]
          exact ⟨rfl, rfl, rfl⟩
        · have hne := hafter i hi hl
          exact ga i hne hi (by rw [(hnext hne).2]; omega) hpi hlast
      · intro hno
        obtain ⟨b1, b2, b3⟩ := gb (by
          intro i hne hi hle
          exact hno i (by simp) hi (by rw [(hnext hne).2] at hle; omega))
        have hne : linF (gridDims dims) q ≠ linF (gridDims dims) g := by
          intro he
          have := linF_inj hq hgb he
          subst this
          exact hno idx (by simp) hb (le_refl _) hp
        rw [b1, b2, b3]
        simp only [GetSt.put]
        rw [List.getElem?_set_ne hne, List.getElem?_set_ne hne, List.getElem?_set_ne hne]
        exact ⟨rfl, rfl, rfl⟩

theorem destPut_spec : ∀ (dims : List CDim) (stride : Nat) (idx g : List Nat) (ii : Int),
    WellFormed dims → InBox (fileDims dims) idx → pointOf dims idx = some g →
    destPut (dimInfos stride dims) idx ii = some (ii + (stride * linF (gridDims dims) g : Nat)) := by
  intro dims
  induction dims with
  | nil =>
    intro stride idx g ii _ hb h
    have hb' : InBox [] idx := hb
    rw [InBox.nil_iff] at hb'
    subst hb'
    simp [dimInfos, destPut, gridDims, linF]
  | cons d ds ih =>
    intro stride idx g ii hw hb h
    have hb' : InBox (d.len :: fileDims ds) idx := hb
    obtain ⟨k, ks, rfl, h1, h2⟩ := InBox.cons_iff.1 hb'
    have step : ∀ (c : Nat) (t : List Nat), pointOf ds ks = some t →
        destPut (dimInfos (stride * d.gsize) ds) ks (ii + (c : Int) * stride) =
        some (ii + (stride * linF (gridDims (d :: ds)) (c :: t) : Nat)) := by
      intro c t ht
      rw [ih (stride * d.gsize) ks t _ (wf_tail hw) h2 ht]
      congr 1
      show _ = ii + ((stride * (c + d.gsize * linF (gridDims ds) t) : Nat) : Int)
      push_cast
      ring
    unfold pointOf at h
    simp only [dimInfos]
    unfold destPut
    cases hc : d.comp with
    | none =>
      simp only [hc] at h
      obtain ⟨t, ht, rfl⟩ := Option.map_eq_some_iff.1 h
      simp only [Option.map_none]
      exact step k t ht
    | some p =>
      obtain ⟨ix, n⟩ := p
      simp only [hc] at h
      simp only [Option.map_some]
      split at h
      · rename_i v hv
        rw [hv]
        simp only
        split at h
        · rename_i h0
          obtain ⟨t, ht, rfl⟩ := Option.map_eq_some_iff.1 h
          have := step v.toNat t ht
          rw [Int.toNat_of_nonneg h0] at this
          exact this
        · cases h
      · cases h

/-- Without negative indices every value has a grid point. -/
theorem pointOf_some : ∀ (dims : List CDim) (idx : List Nat), WellFormed dims → NoNegative dims →
    InBox (fileDims dims) idx → ∃ g, pointOf dims idx = some g := by
  intro dims
  induction dims with
  | nil =>
    intro idx _ _ hb
    have hb' : InBox [] idx := hb
    rw [InBox.nil_iff] at hb'
    subst hb'
    exact ⟨[], rfl⟩
  | cons d ds ih =>
    intro idx hw hn hb
    have hb' : InBox (d.len :: fileDims ds) idx := hb
    obtain ⟨k, ks, rfl, h1, h2⟩ := InBox.cons_iff.1 hb'
    obtain ⟨t, ht⟩ := ih ks (wf_tail hw) (fun d' hd' => hn d' (by simp [hd'])) h2
    unfold pointOf
    cases hc : d.comp with
    | none => exact ⟨k :: t, by simp [ht]⟩
    | some p =>
      obtain ⟨ix, n⟩ := p
      have hlen := ((hw d (by simp)).2 ix n hc).1
      have hk : k < ix.length := by omega
      have h0 := hn d (by simp) ix n hc ix[k] (List.getElem_mem hk)
      refine ⟨(ix[k]).toNat :: t, ?_⟩
      simp only [List.getElem?_eq_getElem hk, h0, if_true, ht, Option.map_some]

/-- Without repeated indices, different values have different grid points. -/
theorem pointOf_inj : ∀ (dims : List CDim) (i j g : List Nat), WellFormed dims → NoRepeats dims →
    InBox (fileDims dims) i → InBox (fileDims dims) j →
    pointOf dims i = some g → pointOf dims j = some g → i = j := by
  intro dims
  induction dims with
  | nil =>
    intro i j g _ _ hi hj _ _
    have hi' : InBox [] i := hi
    have hj' : InBox [] j := hj
    rw [InBox.nil_iff] at hi' hj'
    rw [hi', hj']
  | cons d ds ih =>
    intro i j g hw hr hi hj h1 h2
    have hi' : InBox (d.len :: fileDims ds) i := hi
    have hj' : InBox (d.len :: fileDims ds) j := hj
    obtain ⟨k, ks, rfl, _, hks⟩ := InBox.cons_iff.1 hi'
    obtain ⟨l, ls, rfl, _, hls⟩ := InBox.cons_iff.1 hj'
    have htail := fun t h h' => ih ks ls t (wf_tail hw) (fun d' hd' => hr d' (by simp [hd'])) hks hls h h'
    unfold pointOf at h1 h2
    cases hc : d.comp with
    | none =>
      simp only [hc] at h1 h2
      obtain ⟨t, ht, rfl⟩ := Option.map_eq_some_iff.1 h1
      obtain ⟨t', ht', he⟩ := Option.map_eq_some_iff.1 h2
      cases he
      rw [htail t ht ht']
    | some p =>
      obtain ⟨ix, n⟩ := p
      simp only [hc] at h1 h2
      split at h1
      · rename_i v hv
        split at h2
        · rename_i w hwv
          split at h1
          · rename_i h0
            split at h2
            · rename_i h0'
              obtain ⟨t, ht, rfl⟩ := Option.map_eq_some_iff.1 h1
              obtain ⟨t', ht', he⟩ := Option.map_eq_some_iff.1 h2
              simp only [List.cons.injEq] at he
              obtain ⟨e1, rfl⟩ := he
              have : v = w := by omega
              subst this
              rw [hr d (by simp) ix n hc k l v hv hwv h0, htail t' ht ht']
            · cases h2
          · cases h1
        · cases h2
      · cases h1

theorem putLoop_spec {α : Type} (dims : List CDim) (hw : WellFormed dims) (hn : NoNegative dims)
    (src buffer : List α) (hb : buffer.length = (fileDims dims).prod)
    (hs : ∀ i g, InBox (fileDims dims) i → pointOf dims i = some g →
      src[linF (gridDims dims) g]? = buffer[linF (fileDims dims) i]?) :
    ∀ (n : Nat) (idx : List Nat), (n ≠ 0 → InBox (fileDims dims) idx ∧
        linF (fileDims dims) idx + n = (fileDims dims).prod) →
      putLoop (dimInfos 1 dims) src n idx = some (buffer.drop ((fileDims dims).prod - n)) := by
  intro n
  induction n with
  | zero =>
    intro idx _
    rw [putLoop, List.drop_eq_nil_of_le (by omega)]
  | succ n ih =>
    intro idx h
    obtain ⟨hi, hl⟩ := h (by omega)
    obtain ⟨g, hg⟩ := pointOf_some dims idx hw hn hi
    have hgb := linF_lt (pointOf_inBox dims idx g hw hi hg)
    have hlt : linF (fileDims dims) idx < buffer.length := by omega
    rw [putLoop, destPut_spec dims 1 idx g 1 hw hi hg]
    simp only
    have e : (1 + ((1 * linF (gridDims dims) g : Nat) : Int) - 1).toNat = linF (gridDims dims) g := by
      omega
    rw [if_pos (by omega), e, hs idx g hi hg, List.getElem?_eq_getElem hlt]
    simp only
    rw [ih (incr (dimInfos 1 dims) idx) (fun hne => by
      obtain ⟨g1, g2⟩ := incr_spec dims 1 idx hi (by omega)
      exact ⟨g1, by omega⟩)]
    simp only [Option.map_some]
    have e1 : (fileDims dims).prod - (n + 1) = linF (fileDims dims) idx := by omega
    have e2 : (fileDims dims).prod - n = linF (fileDims dims) idx + 1 := by omega
    rw [e1, e2, List.drop_eq_getElem_cons hlt]

theorem fillOcean_spec {α : Type} (ov : α) : ∀ (d : List α) (h : List Bool), d.length = h.length →
    (fillOcean ov d h).length = d.length ∧ ∀ (k : Nat),
      (h[k]? = some true → (fillOcean ov d h)[k]? = d[k]?) ∧
      (h[k]? = some false → (fillOcean ov d h)[k]? = some ov) := by
  intro d
  induction d with
  | nil => intro h hl; simp [fillOcean]; intro k; cases h <;> simp at hl ⊢
  | cons a d ih =>
    intro h hl
    cases h with
    | nil => simp at hl
    | cons b h =>
      obtain ⟨h1, h2⟩ := ih h (by simpa using hl)
      refine ⟨by simp [fillOcean, h1], fun k => ?_⟩
      cases k with
      | zero => cases b <;> simp [fillOcean]
      | succ k => simpa [fillOcean] using h2 k

end Verif.Compress
