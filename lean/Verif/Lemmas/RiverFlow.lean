import Verif.Lemmas.RiverHalo
import Mathlib.Data.List.Induction
import Mathlib.Tactic.Linarith
import Mathlib.Tactic.ByContra
import Mathlib.Tactic.Positivity
/-
Flow directions of `river_regrid`.
-/
namespace Verif.River
open Verif.Spec CheckMask
variable {K : Type*} [Field K] [LinearOrder K] [IsStrictOrderedRing K]

/-! ### The area that guides the flow -/

theorem foldl_max (l : List K) (b : K) :
    let r := l.foldl (fun b x => if x > b then x else b) b
    (r = b ∨ r ∈ l) ∧ b ≤ r ∧ ∀ x ∈ l, x ≤ r := by
  induction l generalizing b with
  | nil => simp
  | cons y l ih =>
    simp only [List.foldl_cons]
    obtain ⟨h1, h2, h3⟩ := ih (if y > b then y else b)
    refine ⟨?_, ?_, ?_⟩
    · rcases h1 with h1 | h1
      · rw [h1]
        split
        · right; simp
        · left; rfl
      · right; exact List.mem_cons_of_mem _ h1
    · refine le_trans ?_ h2
      split
      · next h => exact h.le
      · exact le_rfl
    · intro x hx
      rcases List.mem_cons.1 hx with rfl | hx
      · refine le_trans ?_ h2
        split
        · exact le_rfl
        · next h => exact not_lt.1 h
      · exact h3 x hx

/-- `subA` of a cell as `calc_max_subA` computes it. -/
def guide (m : Missing K) (landfrac : Place → K) (srcs : Place → List K) (c : Place) : K :=
  if landfrac c < 1 then large else (srcs c).foldl (fun b x => if x > b then x else b) m.subA

theorem isGuide_eq {g : Grid} {m : Missing K} {landfrac area : Place → K} {srcs : Place → List K}
    (hi : InputOk g m landfrac area srcs) {c : Place} (hc : IsCell g c) {a : K} (h : IsGuide m landfrac srcs c a) :
    a = guide m landfrac srcs c := by
  unfold guide
  rcases h with ⟨h, rfl⟩ | ⟨h, h'⟩
  · rw [if_pos h]; rfl
  · rw [if_neg (by rw [h]; exact lt_irrefl _)]
    rcases h' with ⟨h1, rfl⟩ | ⟨h1, h2⟩
    · rw [h1]; rfl
    · obtain ⟨f1, f2, f3⟩ := foldl_max (srcs c) m.subA
      apply le_antisymm
      · exact f3 a h1
      · rcases f1 with f1 | f1
        · rw [f1]
          exact hi.subA.le.trans (hi.srcs c hc a h1).1
        · exact h2 _ f1

theorem guide_cases {g : Grid} {m : Missing K} {landfrac area : Place → K} {srcs : Place → List K}
    (hi : InputOk g m landfrac area srcs) {c : Place} (hc : IsCell g c) :
    m.subA ≤ guide m landfrac srcs c ∧ (guide m landfrac srcs c = m.subA ∨ 0 ≤ guide m landfrac srcs c) := by
  have : (0 : K) ≤ large := by unfold large; positivity
  unfold guide
  split
  · exact ⟨hi.subA.le.trans this, .inr this⟩
  · obtain ⟨f1, f2, f3⟩ := foldl_max (srcs c) m.subA
    refine ⟨f2, ?_⟩
    rcases f1 with f1 | f1
    · exact .inl f1
    · exact .inr (hi.srcs c hc _ f1).1

open Classical in
theorem calcMaxSubA_eq (g : Grid) (m : Missing K) (landfrac : Place → K) (srcs : Place → List K) (p : Place) :
    calcMaxSubA g m landfrac srcs p = if IsCell g (src g p) then guide m landfrac srcs (src g p) else m.subA := by
  unfold calcMaxSubA
  rw [updateHalo_eq]
  by_cases h : IsCell g (src g p)
  · rw [if_pos (inside_iff.2 h), if_pos h]; rfl
  · rw [if_neg (fun h' => h (inside_iff.1 h')), if_neg h]

/-! ### The neighbours -/

theorem offset_dir : ∀ o ∈ offsets, ∃ k : Nat, k < 8 ∧ outDir.getD (o.2 * 3 + o.1) 0 = (k : Int) ∧
    outFlow.getD (o.2 * 3 + o.1) 0 = 2 ^ k ∧ compass k = ((o.1 : Int) - 1, (o.2 : Int) - 1) := by
  decide +kernel

theorem dir_offset : ∀ k, k < 8 → ∃ o ∈ offsets, compass k = ((o.1 : Int) - 1, (o.2 : Int) - 1) := by
  decide +kernel

theorem compass_di : ∀ k, k < 8 → compass k = (di.getD k 0, dj.getD k 0) := by
  decide +kernel

theorem compass_bound : ∀ k, k < 8 → -1 ≤ (compass k).1 ∧ (compass k).1 ≤ 1 ∧ -1 ≤ (compass k).2 ∧ (compass k).2 ≤ 1 := by
  decide +kernel

theorem compass_inj : ∀ k, k < 8 → ∀ k', k' < 8 → compass k = compass k' → k = k' := by
  decide +kernel

theorem offsets_bound : ∀ o ∈ offsets, o.1 ≤ 2 ∧ o.2 ≤ 2 := by decide +kernel

theorem around_inBox {g : Grid} {c : Place} (hc : IsCell g c) {o : Nat × Nat} (ho : o ∈ offsets) :
    InBox g (around c o) := by
  obtain ⟨h0, h1, h2, h3, h4⟩ := hc
  obtain ⟨b1, b2⟩ := offsets_bound o ho
  refine ⟨h0, ?_, ?_⟩ <;> simp only [around] <;> omega

/-- The place in direction `k`. -/
theorem around_of {c : Place} {g : Grid} (hc : IsCell g c) {o : Nat × Nat} {k : Nat}
    (h : compass k = ((o.1 : Int) - 1, (o.2 : Int) - 1)) {p : Place} (h0 : p.1 = c.1)
    (h1 : (p.2.1 : Int) = c.2.1 + (compass k).1) (h2 : (p.2.2 : Int) = c.2.2 + (compass k).2) : p = around c o := by
  obtain ⟨b0, b1, b2, b3, b4⟩ := hc
  rw [h] at h1 h2
  obtain ⟨t, i, j⟩ := p
  simp only [around, Prod.mk.injEq] at *
  exact ⟨h0, by omega, by omega⟩

theorem around_place {c : Place} {g : Grid} (hc : IsCell g c) {o : Nat × Nat} {k : Nat}
    (h : compass k = ((o.1 : Int) - 1, (o.2 : Int) - 1)) : (around c o).1 = c.1 ∧
    ((around c o).2.1 : Int) = c.2.1 + (compass k).1 ∧ ((around c o).2.2 : Int) = c.2.2 + (compass k).2 := by
  obtain ⟨b0, b1, b2, b3, b4⟩ := hc
  rw [h]
  simp only [around]
  refine ⟨trivial, by omega, by omega⟩

theorem neighbour_iff {g : Grid} (hg : MeshOk g) {c d : Place} (hc : IsCell g c) {o : Nat × Nat} (ho : o ∈ offsets)
    {k : Nat} (h : compass k = ((o.1 : Int) - 1, (o.2 : Int) - 1)) :
    Neighbour g c k d ↔ src g (around c o) = d ∧ IsCell g d := by
  rw [← isAt_iff hg (around_inBox hc ho)]
  constructor
  · rintro ⟨p, h0, h1, h2, h3⟩
    rwa [← around_of hc h h0 h1 h2]
  · intro h3
    obtain ⟨h0, h1, h2⟩ := around_place hc h
    exact ⟨_, h0, h1, h2, h3⟩

theorem dest_eq {g : Grid} {c : Place} (hc : IsCell g c) {o : Nat × Nat} {k : Nat} (hk : k < 8)
    (h : compass k = ((o.1 : Int) - 1, (o.2 : Int) - 1)) : dest c (k : Int) = around c o := by
  obtain ⟨b0, b1, b2, b3, b4⟩ := hc
  have hd := compass_di k hk
  rw [hd] at h
  simp only [Prod.mk.injEq] at h
  simp only [dest, around, Int.toNat_natCast, h.1, h.2, Prod.mk.injEq]
  refine ⟨trivial, by omega, by omega⟩

/-! ### The choice -/

theorem lowScan (missing : K) (v : Nat × Nat → K) (hv : ∀ o, v o = missing ∨ 0 ≤ v o) (l : List (Nat × Nat)) :
    let s := l.foldl (lowStep missing v) (-999, none)
    (s = (-999, none) ∧ ∀ o ∈ l, v o = missing) ∨
      ∃ o ∈ l, s = (v o, some o) ∧ v o ≠ missing ∧ ∀ o' ∈ l, v o' ≠ missing → v o' ≤ v o := by
  induction l using List.reverseRecOn with
  | nil => left; simp
  | append_singleton l x ih =>
    simp only [List.foldl_append, List.foldl_cons, List.foldl_nil]
    by_cases hx : v x = missing
    · have : ∀ s, lowStep missing v s x = s := fun s => by simp [lowStep, hx]
      rw [this]
      rcases ih with ⟨h1, h2⟩ | ⟨o, ho, h1, h2, h3⟩
      · left
        refine ⟨h1, fun o ho => ?_⟩
        rcases List.mem_append.1 ho with ho | ho
        · exact h2 o ho
        · rw [List.mem_singleton.1 ho]; exact hx
      · right
        refine ⟨o, List.mem_append_left _ ho, h1, h2, fun o' ho' hm => ?_⟩
        rcases List.mem_append.1 ho' with ho' | ho'
        · exact h3 o' ho' hm
        · rw [List.mem_singleton.1 ho'] at hm; exact absurd hx hm
    · have h0 : 0 ≤ v x := (hv x).resolve_left hx
      right
      rcases ih with ⟨h1, h2⟩ | ⟨o, ho, h1, h2, h3⟩
      · refine ⟨x, by simp, ?_, hx, fun o' ho' hm => ?_⟩
        · rw [h1]; simp only [lowStep]
          rw [if_pos hx, if_pos (by show v x ≥ -999; linarith)]
        · rcases List.mem_append.1 ho' with ho' | ho'
          · exact absurd (h2 o' ho') hm
          · rw [List.mem_singleton.1 ho']
      · by_cases hle : v o ≤ v x
        · refine ⟨x, by simp, ?_, hx, fun o' ho' hm => ?_⟩
          · rw [h1]; simp only [lowStep]
            rw [if_pos hx, if_pos hle]
          · rcases List.mem_append.1 ho' with ho' | ho'
            · exact (h3 o' ho' hm).trans hle
            · rw [List.mem_singleton.1 ho']
        · refine ⟨o, List.mem_append_left _ ho, ?_, h2, fun o' ho' hm => ?_⟩
          · rw [h1]; simp only [lowStep]
            rw [if_pos hx, if_neg hle]
          · rcases List.mem_append.1 ho' with ho' | ho'
            · exact h3 o' ho' hm
            · rw [List.mem_singleton.1 ho']; exact (not_le.1 hle).le

theorem highScan (me : K) (hme : 0 < me) (v : Nat × Nat → K) (l : List (Nat × Nat)) :
    let s := l.foldl (highStep me v) (-999, none)
    (s = (-999, none) ∧ ∀ o ∈ l, ¬me < v o) ∨
      ∃ o ∈ l, s = (v o, some o) ∧ me < v o ∧
        ∀ o' ∈ l, me < v o' → v o' < large → v o < large ∧ v o' ≤ v o := by
  induction l using List.reverseRecOn with
  | nil => left; simp
  | append_singleton l x ih =>
    simp only [List.foldl_append, List.foldl_cons, List.foldl_nil]
    by_cases hx : me < v x
    swap
    · have : ∀ s, highStep me v s x = s := fun s => by simp only [highStep]; rw [if_neg hx]
      rw [this]
      rcases ih with ⟨h1, h2⟩ | ⟨o, ho, h1, h2, h3⟩
      · left
        refine ⟨h1, fun o ho => ?_⟩
        rcases List.mem_append.1 ho with ho | ho
        · exact h2 o ho
        · rw [List.mem_singleton.1 ho]; exact hx
      · right
        refine ⟨o, List.mem_append_left _ ho, h1, h2, fun o' ho' hm => ?_⟩
        rcases List.mem_append.1 ho' with ho' | ho'
        · exact h3 o' ho' hm
        · rw [List.mem_singleton.1 ho'] at hm; exact absurd hm hx
    · right
      rcases ih with ⟨h1, h2⟩ | ⟨o, ho, h1, h2, h3⟩
      · refine ⟨x, by simp, ?_, hx, fun o' ho' hm hl => ?_⟩
        · rw [h1]; simp only [highStep]
          rw [if_pos hx, if_pos trivial, if_pos (by show v x > -999; linarith)]
        · rcases List.mem_append.1 ho' with ho' | ho'
          · exact absurd hm (h2 o' ho')
          · rw [List.mem_singleton.1 ho'] at hl ⊢; exact ⟨hl, le_rfl⟩
      · have hne : v o ≠ -999 := fun e => by rw [e] at h2; linarith
        by_cases hlt : v o < large
        · by_cases hgt : v x > v o ∧ v x < large
          · refine ⟨x, by simp, ?_, hx, fun o' ho' hm hl => ⟨hgt.2, ?_⟩⟩
            · rw [h1]; simp only [highStep]
              rw [if_pos hx, if_neg hne, if_pos hlt, if_pos hgt]
            · rcases List.mem_append.1 ho' with ho' | ho'
              · exact (h3 o' ho' hm hl).2.trans hgt.1.le
              · rw [List.mem_singleton.1 ho']
          · refine ⟨o, List.mem_append_left _ ho, ?_, h2, fun o' ho' hm hl => ⟨hlt, ?_⟩⟩
            · rw [h1]; simp only [highStep]
              rw [if_pos hx, if_neg hne, if_pos hlt, if_neg hgt]
            · rcases List.mem_append.1 ho' with ho' | ho'
              · exact (h3 o' ho' hm hl).2
              · rw [List.mem_singleton.1 ho'] at hl ⊢
                by_contra hc
                exact hgt ⟨not_le.1 hc, hl⟩
        · refine ⟨x, by simp, ?_, hx, fun o' ho' hm hl => ?_⟩
          · rw [h1]; simp only [highStep]
            rw [if_pos hx, if_neg hne, if_neg hlt]
          · rcases List.mem_append.1 ho' with ho' | ho'
            · exact absurd (h3 o' ho' hm hl).1 hlt
            · rw [List.mem_singleton.1 ho'] at hl ⊢; exact ⟨hl, le_rfl⟩

/-- The result of the scan. -/
theorem scan_cases {missing me : K} {v : Nat × Nat → K} (h0 : missing < 0) (hme : missing ≤ me)
    (hv : ∀ o, v o = missing ∨ 0 ≤ v o) :
    let s := scanNeighbours missing me v
    (∃ o ∈ offsets, s = (v o, some o) ∧ me < v o ∧ ∀ o' ∈ offsets, me < v o' →
      if me ≤ 10 ^ 12 then v o' ≤ v o else v o' < 10 ^ 20 → v o < 10 ^ 20 ∧ v o' ≤ v o) ∨
    ((s.2 = none ∨ ∃ o, s.2 = some o ∧ ¬s.1 > me) ∧ ∀ o ∈ offsets, v o ≤ me) := by
  simp only
  unfold scanNeighbours
  by_cases hcut : me > cutoff
  · rw [if_pos hcut]
    have hpos : 0 < me := lt_trans (by unfold cutoff; positivity) hcut
    rcases highScan me hpos v offsets with ⟨h1, h2⟩ | ⟨o, ho, h1, h2, h3⟩
    · right
      rw [h1]
      exact ⟨.inl rfl, fun o ho => not_lt.1 (h2 o ho)⟩
    · left
      refine ⟨o, ho, h1, h2, fun o' ho' hm => ?_⟩
      rw [if_neg (show ¬me ≤ 10 ^ 12 from not_le.2 hcut)]
      exact h3 o' ho' hm
  · rw [if_neg hcut]
    rcases lowScan missing v hv offsets with ⟨h1, h2⟩ | ⟨o, ho, h1, h2, h3⟩
    · right
      rw [h1]
      exact ⟨.inl rfl, fun o ho => by rw [h2 o ho]; exact hme⟩
    · by_cases hgt : me < v o
      · left
        refine ⟨o, ho, h1, hgt, fun o' ho' hm => ?_⟩
        rw [if_pos (show me ≤ 10 ^ 12 from not_lt.1 hcut)]
        exact h3 o' ho' (fun e => by rw [e] at hm; exact absurd hme (not_le.2 hm))
      · right
        rw [h1]
        refine ⟨.inr ⟨o, rfl, hgt⟩, fun o' ho' => ?_⟩
        by_cases hm : v o' = missing
        · rw [hm]; exact hme
        · exact (h3 o' ho' hm).trans (not_lt.1 hgt)

/-! ### The directions -/

/-- What `calc_tocell` finds for a cell. -/
theorem tocellAt_spec {g : Grid} {m : Missing K} {landfrac area : Place → K} {srcs : Place → List K} (hg : MeshOk g)
    (hi : InputOk g m landfrac area srcs) {c : Place} (hc : IsCell g c) :
    let r := tocellAt m landfrac (calcMaxSubA g m landfrac srcs) c
    let a := guide m landfrac srcs
    (landfrac c = 0 ∧ r = (m.tocell, -1)) ∨
    (0 < landfrac c ∧ landfrac c < 1 ∧ r = (0, -1)) ∨
    (landfrac c = 1 ∧ (∀ k d, k < 8 → Neighbour g c k d → a d ≤ a c) ∧ r = (0, -1)) ∨
    (landfrac c = 1 ∧ ∃ (k : Nat) (d : Place), k < 8 ∧ Neighbour g c k d ∧ a c < a d ∧ r = (2 ^ k, (k : Int)) ∧ src g (dest c k) = d ∧
      ∀ k' d', k' < 8 → Neighbour g c k' d' → a c < a d' →
        if a c ≤ 10 ^ 12 then a d' ≤ a d else a d' < 10 ^ 20 → a d < 10 ^ 20 ∧ a d' ≤ a d) := by
  simp only
  obtain ⟨f0, f1⟩ := hi.frac c hc
  unfold tocellAt
  by_cases h0 : landfrac c = 0
  · rw [if_pos h0]; exact .inl ⟨h0, rfl⟩
  rw [if_neg h0]
  by_cases h1 : landfrac c < 1
  · rw [if_pos h1]; exact .inr (.inl ⟨lt_of_le_of_ne f0 (Ne.symm h0), h1, rfl⟩)
  rw [if_neg h1]
  have e1 : landfrac c = 1 := le_antisymm f1 (not_lt.1 h1)
  have hself : calcMaxSubA g m landfrac srcs c = guide m landfrac srcs c := by
    rw [calcMaxSubA_eq, src_cell hg hc, if_pos hc]
  have hcell : ∀ o, IsCell g (src g (around c o)) →
      calcMaxSubA g m landfrac srcs (around c o) = guide m landfrac srcs (src g (around c o)) := by
    intro o h
    rw [calcMaxSubA_eq, if_pos h]
  have hv : ∀ o, calcMaxSubA g m landfrac srcs (around c o) = m.subA ∨ 0 ≤ calcMaxSubA g m landfrac srcs (around c o) := by
    intro o
    rw [calcMaxSubA_eq]
    split
    · next h => exact (guide_cases hi h).2
    · exact .inl rfl
  have hscan := scan_cases (v := fun o => calcMaxSubA g m landfrac srcs (around c o)) hi.subA
    (guide_cases hi hc).1 hv
  simp only at hscan ⊢
  rw [hself]
  rcases hscan with ⟨o, ho, s1, s2, s3⟩ | ⟨s1, s2⟩
  · right; right; right
    rw [s1]
    simp only
    rw [if_pos s2]
    obtain ⟨k, hk, d1, d2, d3⟩ := offset_dir o ho
    have hin : IsCell g (src g (around c o)) := by
      by_contra hno
      rw [calcMaxSubA_eq, if_neg hno] at s2
      exact absurd (guide_cases hi hc).1 (not_le.2 s2)
    refine ⟨e1, k, src g (around c o), hk, (neighbour_iff hg hc ho d3).2 ⟨rfl, hin⟩, ?_, ?_, ?_, ?_⟩
    · rw [← hcell o hin]; exact s2
    · rw [d1, d2]
    · rw [dest_eq hc hk d3]
    · intro k' d' hk' hn' ha'
      obtain ⟨o', ho', d3'⟩ := dir_offset k' hk'
      obtain ⟨rfl, hin'⟩ := (neighbour_iff hg hc ho' d3').1 hn'
      rw [← hcell o hin]
      rw [← hcell o' hin'] at ha' ⊢
      exact s3 o' ho' ha'
  · right; right; left
    refine ⟨e1, ?_, ?_⟩
    · intro k' d' hk' hn'
      obtain ⟨o', ho', d3'⟩ := dir_offset k' hk'
      obtain ⟨rfl, hin'⟩ := (neighbour_iff hg hc ho' d3').1 hn'
      rw [← hcell o' hin']
      exact s2 o' ho'
    · rcases s1 with s1 | ⟨o, s1, s4⟩
      · rw [s1]
      · rw [s1]; simp only; rw [if_neg s4]

/-- A network of directions: what the later steps rely on. -/
structure NetOk (g : Grid) (m : Missing K) (landfrac : Place → K) (a : Place → K) (tocell dir : Place → Int) : Prop where
  at_cell : ∀ p, IsCell g (src g p) → tocell p = tocell (src g p) ∧ dir p = dir (src g p)
  at_other : ∀ p, ¬IsCell g (src g p) → tocell p = m.tocell ∧ dir p = -1
  ocean : ∀ c, IsCell g c → (landfrac c = 0 ↔ tocell c = m.tocell)
  kinds : ∀ c, IsCell g c → (tocell c = m.tocell ∧ dir c = -1) ∨ (tocell c = 0 ∧ dir c = -1) ∨
    ∃ (k : Nat) (d : Place), k < 8 ∧ tocell c = 2 ^ k ∧ dir c = (k : Int) ∧ Neighbour g c k d ∧ src g (dest c k) = d ∧ IsCell g d ∧
      a c < a d

theorem calcTocell_ok {g : Grid} {m : Missing K} {landfrac area : Place → K} {srcs : Place → List K} (hg : MeshOk g)
    (hi : InputOk g m landfrac area srcs) :
    ∃ tocell dir, calcTocell g m landfrac (calcMaxSubA g m landfrac srcs) = .ok (tocell, dir) ∧
      (∀ c, IsCell g c → DirectionOk g m landfrac (guide m landfrac srcs) tocell c) ∧
      NetOk g m landfrac (guide m landfrac srcs) tocell dir := by
  unfold calcTocell
  simp only
  have hmiss : m.tocell ≠ 0 := hi.tocell.ne
  have hpow : ∀ k : Nat, (2 : Int) ^ k ≠ m.tocell := fun k e => by
    have : (0 : Int) < 2 ^ k := by positivity
    have := hi.tocell
    omega
  rw [if_neg]
  swap
  · rw [List.any_eq_true]
    rintro ⟨c, hc, h⟩
    rw [mem_cells] at hc
    simp only [Bool.and_eq_true, decide_eq_true_eq] at h
    rcases tocellAt_spec hg hi hc with ⟨-, e⟩ | ⟨-, -, e⟩ | ⟨-, -, e⟩ | ⟨-, k, d, -, -, -, e, -⟩
    all_goals
      rw [e] at h
      simp at h
  refine ⟨_, _, rfl, ?_, ?_⟩
  · intro c hc
    have hcv : ∀ {V : Type} (f g' : Place → V), updateHalo g (fun p => if inside g p = true then f p else g' p) c = f c := by
      intro V f g'
      rw [updateHalo_eq, src_cell hg hc, if_pos (inside_iff.2 hc)]
    unfold DirectionOk
    rw [hcv]
    rcases tocellAt_spec hg hi hc with ⟨h, e⟩ | ⟨h, h', e⟩ | ⟨h, h', e⟩ | ⟨h, k, d, h1, h2, h3, e, h4, h5⟩
    · exact .inl ⟨h, by rw [e]⟩
    · exact .inr (.inl ⟨h, h', by rw [e]⟩)
    · exact .inr (.inr (.inl ⟨h, h', by rw [e]⟩))
    · exact .inr (.inr (.inr ⟨h, k, d, h1, h2, h3, by rw [e], h5⟩))
  · have hval : ∀ p, IsCell g (src g p) →
      updateHalo g (fun p => if inside g p = true then
        (tocellAt m landfrac (calcMaxSubA g m landfrac srcs) p).1 else m.tocell) p =
          (tocellAt m landfrac (calcMaxSubA g m landfrac srcs) (src g p)).1 ∧
      updateHalo g (fun p => if inside g p = true then
        (tocellAt m landfrac (calcMaxSubA g m landfrac srcs) p).2 else -1) p =
          (tocellAt m landfrac (calcMaxSubA g m landfrac srcs) (src g p)).2 := by
      intro p hp
      rw [updateHalo_eq, updateHalo_eq, if_pos (inside_iff.2 hp), if_pos (inside_iff.2 hp)]
      exact ⟨rfl, rfl⟩
    refine ⟨?_, ?_, ?_, ?_⟩
    · intro p hp
      have := hval (src g p) (by rw [src_cell hg hp]; exact hp)
      rw [src_cell hg hp] at this
      rw [this.1, this.2]
      exact hval p hp
    · intro p hp
      have : ¬inside g (src g p) = true := fun h => hp (inside_iff.1 h)
      rw [updateHalo_eq, updateHalo_eq, if_neg this, if_neg this]
      exact ⟨rfl, rfl⟩
    · intro c hc
      have := hval c (by rw [src_cell hg hc]; exact hc)
      rw [src_cell hg hc] at this
      rw [this.1]
      rcases tocellAt_spec hg hi hc with ⟨h, e⟩ | ⟨h, h', e⟩ | ⟨h, h', e⟩ | ⟨h, k, d, h1, h2, h3, e, h4, h5⟩
      · rw [e]; simp [h]
      · rw [e]; simp [h.ne', Ne.symm hmiss]
      · rw [e]; simp [h, Ne.symm hmiss]
      · rw [e]; simp [h, hpow]
    · intro c hc
      have := hval c (by rw [src_cell hg hc]; exact hc)
      rw [src_cell hg hc] at this
      rw [this.1, this.2]
      rcases tocellAt_spec hg hi hc with ⟨h, e⟩ | ⟨h, h', e⟩ | ⟨h, h', e⟩ | ⟨h, k, d, h1, h2, h3, e, h4, h5⟩
      · exact .inl (by rw [e]; simp)
      · exact .inr (.inl (by rw [e]; simp))
      · exact .inr (.inl (by rw [e]; simp))
      · refine .inr (.inr ⟨k, d, h1, by rw [e], by rw [e], h2, h4, ?_, h3⟩)
        obtain ⟨p, -, -, -, hp⟩ := h2
        exact hp.1

section net
variable {g : Grid} {m : Missing K} {landfrac a : Place → K} {tocell dir : Place → Int}

theorem NetOk.flowsTo_iff (h : NetOk g m landfrac a tocell dir) (hg : MeshOk g) (hm : m.tocell < 0) {c d : Place}
    (hc : IsCell g c) : FlowsTo g tocell c d ↔ 0 ≤ dir c ∧ src g (dest c (dir c)) = d := by
  constructor
  · rintro ⟨k, hk, e, hd⟩
    have hpos : (0 : Int) < 2 ^ k := by positivity
    rcases h.kinds c hc with ⟨e', -⟩ | ⟨e', -⟩ | ⟨k', d', hk', e', ed, hd', hs, -, ha⟩
    · omega
    · omega
    · have hkk : k = k' := by
        rw [e] at e'
        exact Int.pow_right_injective (by decide) e'
      subst hkk
      obtain ⟨o, ho, hco⟩ := dir_offset k hk
      have h1 := ((neighbour_iff hg hc ho hco).1 hd).1
      have h2 := ((neighbour_iff hg hc ho hco).1 hd').1
      rw [ed]
      refine ⟨by omega, ?_⟩
      rw [hs, ← h1, ← h2]
  · rintro ⟨h0, hs⟩
    rcases h.kinds c hc with ⟨-, e'⟩ | ⟨-, e'⟩ | ⟨k', d', hk', e', ed, hd', hs', -, ha⟩
    · omega
    · omega
    · rw [ed, hs'] at hs
      subst hs
      exact ⟨k', hk', e', hd'⟩

theorem NetOk.flows_up (h : NetOk g m landfrac a tocell dir) (hg : MeshOk g) (hm : m.tocell < 0) {c d : Place}
    (hc : IsCell g c) (hf : FlowsTo g tocell c d) : IsCell g d ∧ a c < a d := by
  obtain ⟨h0, hs⟩ := (h.flowsTo_iff hg hm hc).1 hf
  rcases h.kinds c hc with ⟨-, e'⟩ | ⟨-, e'⟩ | ⟨k', d', hk', e', ed, hd', hs', hcd, ha⟩
  · omega
  · omega
  · rw [ed, hs'] at hs
    subst hs
    exact ⟨hcd, ha⟩

end net

end Verif.River
