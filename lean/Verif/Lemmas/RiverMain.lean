import Verif.Lemmas.RiverSort
import Mathlib.Algebra.Order.BigOperators.Group.Finset
/-
The steps of `river_regrid` together.
-/
namespace Verif.River
open Verif.Spec CheckMask Relation
variable {K : Type*} [Field K] [LinearOrder K] [IsStrictOrderedRing K]
variable {g : Grid} {m : Missing K} {landfrac area : Place → K} {srcs : Place → List K}

/-- Water of ocean cells does not pass through land cells. -/
theorem drained_land {a : Place → K} {tocell dir : Place → Int} (h : NetOk g m landfrac a tocell dir) (hg : MeshOk g)
    (hi : InputOk g m landfrac area srcs) {c : Place} (hl : landfrac c ≠ 0) (hc : IsCell g c) :
    drained g tocell (cellArea m landfrac area) c = drained g tocell (fun x => area x * landfrac x) c ∧
      0 < drained g tocell (fun x => area x * landfrac x) c := by
  have hm := hi.tocell
  classical
  have hx : ∀ x, IsCell g x → ReflTransGen (FlowsTo g tocell) x c → 0 < landfrac x := by
    intro x hx hr
    refine lt_of_le_of_ne (hi.frac x hx).1 (fun e => ?_)
    rcases ReflTransGen.cases_head hr with rfl | ⟨d, hf, -⟩
    · exact hl e.symm
    · have := (h.ocean x hx).1 e.symm
      have := flows_pos hf
      omega
  constructor
  · unfold drained
    apply Finset.sum_congr rfl
    intro x hx'
    simp only [Finset.mem_filter, mem_cellSet] at hx'
    unfold cellArea
    rw [if_pos (hx x hx'.1 hx'.2)]
  · unfold drained
    apply Finset.sum_pos
    · intro x hx'
      simp only [Finset.mem_filter, mem_cellSet] at hx'
      exact mul_pos (hi.area x hx'.1) (hx x hx'.1 hx'.2)
    · exact ⟨c, by simp only [Finset.mem_filter, mem_cellSet]; exact ⟨hc, .refl⟩⟩

/-- What the tool writes. -/
structure ResultOk (g : Grid) (m : Missing K) (landfrac area : Place → K) (r : Rivers K) : Prop where
  ocean : ∀ c, IsCell g c → landfrac c = 0 →
    r.travel c = m.travel ∧ r.basin c = m.basin ∧ r.last c = false ∧ r.subA c = m.subA
  land : ∀ c n o, DrainsTo g m.tocell r.tocell c n o → r.travel c = n ∧ r.basin c = r.basin o
  last : ∀ c, IsCell g c → (r.last c = true ↔ ∃ n, DrainsTo g m.tocell r.tocell c n c)
  area : ∀ c, IsCell g c → landfrac c ≠ 0 → r.subA c = drained g r.tocell (fun x => area x * landfrac x) c
  basins : ∃ N : Int, (∀ c, IsCell g c → r.last c = true → 1 ≤ r.basin c ∧ r.basin c ≤ N) ∧
    (∀ b, 1 ≤ b → b ≤ N → ∃ c, IsCell g c ∧ r.last c = true ∧ r.basin c = b)
  inj : ∀ c c', IsCell g c → IsCell g c' → r.last c = true → r.last c' = true → r.basin c = r.basin c' → c = c'
  order : ∀ c c', IsCell g c → IsCell g c' → r.last c = true → r.last c' = true → r.subA c < r.subA c' →
    r.basin c' < r.basin c

/-- No water has to wait: some cell is one step from a last point it does not contain, or all rivers are one cell. -/
def NoGap (g : Grid) (mt : Int) (tocell : Place → Int) : Prop :=
  (∃ c d, IsCell g c ∧ FlowsTo g tocell c d ∧ tocell d = 0) ∨
    ∀ c d, IsCell g c → FlowsTo g tocell c d → tocell d = mt

theorem river_main (hg : MeshOk g) (hi : InputOk g m landfrac area srcs) :
    ∃ tocell dir, calcTocell g m landfrac (calcMaxSubA g m landfrac srcs) = .ok (tocell, dir) ∧
      NetOk g m landfrac (guide m landfrac srcs) tocell dir ∧
      (NoGap g m.tocell tocell → ∃ r, riverRegrid g m landfrac area srcs = .ok r ∧ r.tocell = tocell ∧
        ResultOk g m landfrac area r) ∧
      (¬NoGap g m.tocell tocell → ∀ r, riverRegrid g m landfrac area srcs ≠ .ok r) := by
  have hm := hi.tocell
  have htr := hi.travel
  have hba := hi.basin
  obtain ⟨tocell, dir, e1, -, hn⟩ := calcTocell_ok hg hi
  refine ⟨tocell, dir, e1, hn, ?_⟩
  obtain ⟨N, hN, hlast, hrange, hinj, hsurj⟩ := coast_last (m := m) hn hg hm
  have hpass := coast_pass (m := m) hn hg hm
  obtain ⟨k', b, t, e2, -, hp, hall, hno⟩ := travelLoop_ok hn hg hm htr hba (fun o n h => (hrange o n h).1)
    ((cells g).length + 1) 0 _ _ hpass (Nat.lt_succ_of_le (List.countP_le_length))
  generalize hβ : (coast g m tocell dir).basin = β at *
  generalize hL : (coast g m tocell dir).last = L at *
  -- the result before the sort
  have e3 : calcRiverData g m landfrac area tocell dir = .ok ⟨tocell, dir, t, b, L,
      accLoop g dir t (cellArea m landfrac area) (maxOver g t + 1).toNat fun _ => m.subA⟩ := by
    unfold calcRiverData
    simp only
    rw [hβ]
    rw [show ((0 : Nat) : Int) = 0 from rfl] at e2
    rw [e2]
    simp only
    rw [hL]
  have hfull : NoGap g m.tocell tocell ↔ ∀ c n o, DrainsTo g m.tocell tocell c n o → n ≤ k' + 1 ∨ c = o := by
    constructor
    · intro hng c n o hr
      by_contra hcon
      have hne : c ≠ o := fun h => hcon (.inr h)
      have hnk : k' + 1 < n := by
        by_contra h
        exact hcon (.inl (by omega))
      rcases hng with ⟨c0, d0, hc0, hf0, e0⟩ | hng
      · have hd0 := (hn.flows_up hg hm hc0 hf0).1
        have hk0 : k' ≠ 0 := by
          rintro rfl
          refine hno ⟨c0, d0, .step hc0 hf0 (by omega) (.sink hd0 e0), ?_⟩
          rintro rfl
          have := (hn.flows_up hg hm hc0 hf0).2
          exact lt_irrefl _ this
        -- go down the river
        have down : ∀ n c, DrainsTo g m.tocell tocell c n o → k' + 1 ≤ n →
            ∃ c', DrainsTo g m.tocell tocell c' (k' + 1) o ∧ c' ≠ o := by
          intro n
          induction n with
          | zero => intro c _ h; omega
          | succ n ih =>
            intro c hr h
            have hne : c ≠ o := by
              rintro rfl
              have := hn.ends_travel hg hm hr
              split at this <;> omega
            by_cases hk : n = k'
            · subst hk; exact ⟨c, hr, hne⟩
            · obtain ⟨d, n', en, -, -, -, hr'⟩ := hn.drains_on hg hm hr hne
              have : n' = n := by omega
              subst this
              exact ih d hr' (by omega)
        obtain ⟨c', h1, h2⟩ := down n c hr (by omega)
        exact hno ⟨c', o, h1, h2⟩
      · obtain ⟨d, n', en, hf, -, hld, hr'⟩ := hn.drains_on hg hm hr hne
        exact hld (hng c d (drains_cell hr) hf)
    · intro hfull
      by_contra hng
      unfold NoGap at hng
      rw [not_or] at hng
      obtain ⟨h1, h2⟩ := hng
      -- a river of two cells
      have h3 : ∃ c d, IsCell g c ∧ FlowsTo g tocell c d ∧ tocell d ≠ m.tocell := by
        by_contra hcon
        exact h2 fun c d hc hf => by
          by_contra hd
          exact hcon ⟨c, d, hc, hf, hd⟩
      obtain ⟨c, d, hc, hf, hd⟩ := h3
      have hcd := (hn.flows_up hg hm hc hf).1
      obtain ⟨n, o, hr⟩ := hn.drains_exists hg hm hcd hd
      have hr' := DrainsTo.step hc hf hd hr
      have hco : c ≠ o := by
        rintro rfl
        have := (hn.drains_up hg hm hr).2
        have := (hn.flows_up hg hm hc hf).2
        exact absurd this (not_lt.2 ‹_›)
      have hk0 : k' = 0 := by
        by_contra hk
        obtain ⟨c1, o1, hr1, hne1⟩ := hall 0 (by omega) (by omega)
        obtain ⟨d1, n1, en, hf1, hcd1, -, hr1'⟩ := hn.drains_on hg hm hr1 hne1
        have : n1 = 0 := by omega
        subst this
        have : tocell d1 = 0 := by cases hr1'; assumption
        exact h1 ⟨c1, d1, drains_cell hr1, hf1, this⟩
      subst hk0
      rcases hfull c (n + 1) o hr' with h | h
      · exact hno ⟨c, o, by rwa [show n + 1 = 0 + 1 by omega] at hr', hco⟩
      · exact hco h
  constructor
  · intro hng
    have hfl := hfull.1 hng
    have ht : TravelOk g m tocell t := ⟨fun c hc e => by rw [(hp.ocean c hc e).2]; exact htr,
      fun c n o hr => (hp.done c n o hr (hfl c n o hr)).2⟩
    have hb : ∀ c n o, DrainsTo g m.tocell tocell c n o → b c = β o :=
      fun c n o hr => (hp.done c n o hr (hfl c n o hr)).1
    have hacc := fun (c : Place) (hc : IsCell g c) => accLoop_ok (m := m) hn hg hm ht (cellArea m landfrac area) hc
    have hland : ∀ c, IsCell g c → landfrac c ≠ 0 → ∃ n o, DrainsTo g m.tocell tocell c n o := by
      intro c hc hl
      exact hn.drains_exists hg hm hc (fun e => hl ((hn.ocean c hc).2 e))
    have hdl : ∀ c n o, DrainsTo g m.tocell tocell c n o → landfrac c ≠ 0 := by
      intro c n o hr e
      exact drains_land hm hr ((hn.ocean c (drains_cell hr)).1 e)
    generalize hS : (accLoop g dir t (cellArea m landfrac area) (maxOver g t + 1).toNat fun _ => m.subA) = S at *
    have hS1 : ∀ c, IsCell g c → landfrac c ≠ 0 → S c = drained g tocell (fun x => area x * landfrac x) c ∧ 0 < S c := by
      intro c hc hl
      obtain ⟨n, o, hr⟩ := hland c hc hl
      have h1 := (hacc c hc).1 (by rw [ht.land c n o hr]; omega)
      obtain ⟨h2, h3⟩ := drained_land hn hg hi hl hc
      rw [h1, h2]
      exact ⟨rfl, h3⟩
    have hS0 : ∀ c, IsCell g c → landfrac c = 0 → S c = m.subA := by
      intro c hc hl
      exact (hacc c hc).2 (ht.ocean c hc ((hn.ocean c hc).1 hl))
    have hlastb : ∀ c, IsCell g c → L c = true → 1 ≤ b c ∧ b c ≤ N ∧ b c = β c ∧ ∃ n, DrainsTo g m.tocell tocell c n c := by
      intro c hc hl
      obtain ⟨n, hr⟩ := (hlast c hc).1 hl
      have := hrange c n hr
      rw [hb c n c hr]
      exact ⟨this.1, this.2, rfl, n, hr⟩
    have hB : BasinsOk g m ⟨tocell, dir, t, b, L, S⟩ N := by
      refine ⟨hN, hba, ?_, ?_, ?_, ?_, ?_⟩
      · intro c hc
        by_cases hl : landfrac c = 0
        · exact .inl (hp.ocean c hc ((hn.ocean c hc).1 hl)).1
        · right
          obtain ⟨n, o, hr⟩ := hland c hc hl
          obtain ⟨n', ho⟩ := drains_last hr
          simp only
          rw [hb c n o hr]
          exact hrange o n' ho
      · intro c hc hl
        obtain ⟨h1, h2, -⟩ := hlastb c hc hl
        exact ⟨h1, h2⟩
      · intro c c' hc hc' hl hl' he
        obtain ⟨-, -, h1, n, hr⟩ := hlastb c hc hl
        obtain ⟨-, -, h1', n', hr'⟩ := hlastb c' hc' hl'
        simp only at he
        rw [h1, h1'] at he
        exact hinj c c' n n' hr hr' he
      · intro v h1 h2
        obtain ⟨o, n, hr, e⟩ := hsurj v h1 h2
        have hc := drains_cell hr
        exact ⟨o, hc, (hlast o hc).2 ⟨n, hr⟩, by simp only; rw [hb o n o hr, e]⟩
      · intro c hc hl
        obtain ⟨-, -, -, n, hr⟩ := hlastb c hc hl
        have := (hS1 c hc (hdl c n c hr)).2
        have := hi.subA
        simp only
        exact ne_of_gt (by linarith)
    obtain ⟨r, σ, e4, er, s1, s2, s3, s4, s5, s6⟩ := sortBasin_ok hB
    have q1 : r.tocell = tocell := by rw [er]
    have q2 : r.travel = t := by rw [er]
    have q3 : r.last = L := by rw [er]
    have q4 : r.subA = S := by rw [er]
    simp only at s1 s2 s6
    have hrb : ∀ c n o, DrainsTo g m.tocell tocell c n o → r.basin c = σ (β o) := by
      intro c n o hr
      obtain ⟨n', ho⟩ := drains_last hr
      have := (hrange o n' ho).1
      rw [s2 c (drains_cell hr) (by rw [hb c n o hr]; omega), hb c n o hr]
    have hR : ResultOk g m landfrac area r := by
      refine ⟨?_, ?_, ?_, ?_, ?_, ?_, ?_⟩
      · intro c hc hl
        have hoc := (hn.ocean c hc).1 hl
        rw [q2, q3, q4]
        refine ⟨(hp.ocean c hc hoc).2, s1 c hc (hp.ocean c hc hoc).1, ?_, hS0 c hc hl⟩
        by_contra hcon
        obtain ⟨n, hr⟩ := (hlast c hc).1 (by simpa using hcon)
        exact hdl c n c hr hl
      · intro c n o hr
        rw [q1] at hr
        rw [q2]
        obtain ⟨n', ho⟩ := drains_last hr
        rw [hrb c n o hr, hrb o n' o ho]
        exact ⟨ht.land c n o hr, rfl⟩
      · intro c hc
        rw [q3, q1]
        exact hlast c hc
      · intro c hc hl
        rw [q4, q1]
        exact (hS1 c hc hl).1
      · refine ⟨N, ?_, ?_⟩
        · intro c hc hl
          rw [q3] at hl
          obtain ⟨h1, h2, h3, n, hr⟩ := hlastb c hc hl
          rw [hrb c n c hr, ← h3]
          exact s3 _ h1 h2
        · intro v h1 h2
          obtain ⟨w, w1, w2, rfl⟩ := s5 v h1 h2
          obtain ⟨o, n, hr, rfl⟩ := hsurj w w1 w2
          have hc := drains_cell hr
          exact ⟨o, hc, by rw [q3]; exact (hlast o hc).2 ⟨n, hr⟩, hrb o n o hr⟩
      · intro c c' hc hc' hl hl' he
        rw [q3] at hl hl'
        obtain ⟨h1, h2, h3, n, hr⟩ := hlastb c hc hl
        obtain ⟨h1', h2', h3', n', hr'⟩ := hlastb c' hc' hl'
        rw [hrb c n c hr, hrb c' n' c' hr', ← h3, ← h3'] at he
        have := s4 _ _ h1 h2 h1' h2' he
        rw [h3, h3'] at this
        exact hinj c c' n n' hr hr' this
      · intro c c' hc hc' hl hl' hlt
        rw [q3] at hl hl'
        rw [q4] at hlt
        obtain ⟨h1, h2, h3, n, hr⟩ := hlastb c hc hl
        obtain ⟨h1', h2', h3', n', hr'⟩ := hlastb c' hc' hl'
        rw [hrb c n c hr, hrb c' n' c' hr', ← h3, ← h3']
        exact s6 c c' hc hc' hl hl' hlt
    refine ⟨r, ?_, q1, hR⟩
    unfold riverRegrid
    simp only
    rw [e1]
    simp only
    rw [e3]
    simp only
    rw [e4]
    simp only
    have hcheck : checkRiverData g m landfrac r = .ok () := by
      unfold checkRiverData
      simp only
      rw [if_neg]
      swap
      · rw [List.any_eq_true]
        rintro ⟨c, hc, hd⟩
        rw [mem_cells] at hc
        simp only [Bool.and_eq_true, decide_eq_true_eq] at hd
        obtain ⟨h1, h2, h3, h4⟩ := hR.ocean c hc hd.1
        have h5 := (hn.ocean c hc).1 hd.1
        rw [q1] at hd
        rcases hd.2 with h | h | h | h
        · exact h h5
        · exact h h1
        · exact h h2
        · exact h h4
      rw [if_neg]
      swap
      · rw [List.any_eq_true]
        rintro ⟨c, hc, hd⟩
        rw [mem_cells] at hc
        simp only [Bool.and_eq_true, decide_eq_true_eq] at hd
        obtain ⟨n, o, hr⟩ := hland c hc hd.1
        obtain ⟨n', ho⟩ := drains_last hr
        rcases hd.2 with h | h | h | h
        · rw [q1] at h; exact drains_land hm hr h
        · rw [q2, ht.land c n o hr] at h; omega
        · rw [hrb c n o hr] at h
          obtain ⟨x1, x2⟩ := hrange o n' ho
          have := (s3 _ x1 x2).1
          omega
        · rw [q4] at h
          have := (hS1 c hc hd.1).2
          rw [h] at this
          exact absurd this (not_lt.2 hi.subA.le)
      -- the number of last points in each basin
      have hmaxle : maxOver g r.basin ≤ N := by
        rcases maxOver_eq (g := g) r.basin with e | ⟨c, hc, e⟩
        · omega
        · rw [e]
          by_cases hl : landfrac c = 0
          · rw [(hR.ocean c hc hl).2.1]; omega
          · obtain ⟨n, o, hr⟩ := hland c hc hl
            obtain ⟨n', ho⟩ := drains_last hr
            rw [hrb c n o hr]
            obtain ⟨x1, x2⟩ := hrange o n' ho
            exact (s3 _ x1 x2).2
      have hone : ∀ n : Nat, n < (maxOver g r.basin).toNat →
          ((cells g).filter fun c => r.last c && decide (r.basin c = n + 1)).length = 1 := by
        intro n hn1
        obtain ⟨w, w1, w2, w3⟩ := s5 (n + 1) (by omega) (by omega)
        obtain ⟨o, no, hr, rfl⟩ := hsurj w w1 w2
        have hc := drains_cell hr
        rw [← List.countP_eq_length_filter]
        have : (cells g).countP (fun c => r.last c && decide (r.basin c = n + 1)) = (cells g).count o := by
          unfold List.count
          apply List.countP_congr
          intro c hcm
          have hcc := mem_cells.1 hcm
          simp only [Bool.and_eq_true, decide_eq_true_eq, beq_iff_eq]
          have hlo : r.last o = true := by rw [q3]; exact (hlast o hc).2 ⟨no, hr⟩
          have hbo : r.basin o = n + 1 := by rw [hrb o no o hr, w3]
          constructor
          · rintro ⟨hl, hbc⟩
            exact hR.inj c o hcc hc hl hlo (by rw [hbc, hbo])
          · rintro rfl
            exact ⟨hlo, hbo⟩
        rw [this]
        exact List.count_eq_one_of_mem (nodup_cells g) (mem_cells.2 hc)
      rw [if_neg]
      swap
      · rw [List.any_eq_true]
        rintro ⟨n, hnr, hd⟩
        have hd := of_decide_eq_true hd
        have := hone n (List.mem_range.1 hnr)
        omega
      rw [if_neg]
      rw [List.any_eq_true]
      rintro ⟨n, hnr, hd⟩
      have hd := of_decide_eq_true hd
      have := hone n (List.mem_range.1 hnr)
      omega
    rw [hcheck]
  · intro hng r hr
    rw [hfull] at hng
    have h1 : ∃ c n o, DrainsTo g m.tocell tocell c n o ∧ k' + 1 < n ∧ c ≠ o := by
      by_contra hcon
      apply hng
      intro c n o hd
      by_contra h
      exact hcon ⟨c, n, o, hd, by by_contra h'; exact h (.inl (by omega)), fun h' => h (.inr h')⟩
    obtain ⟨c, n, o, hd, hk, hne⟩ := h1
    have htm := (hp.todo c n o hd hk hne).2
    have hcc := drains_cell hd
    unfold riverRegrid at hr
    simp only at hr
    rw [e1] at hr
    simp only at hr
    rw [e3] at hr
    simp only at hr
    split at hr
    · cases hr
    · next r2 e4 =>
      have h2 : r2.travel = t := by
        unfold sortBasin at e4
        simp only at e4
        split at e4
        · cases e4
        · split at e4
          · cases e4
          · split at e4
            · cases e4
            · split at e4
              · cases e4
              · split at e4
                · cases e4
                · cases e4; rfl
      have h3 : checkRiverData g m landfrac r2 ≠ .ok () := by
        unfold checkRiverData
        simp only
        split
        · exact fun h => by cases h
        · rw [if_pos]
          · exact fun h => by cases h
          · rw [List.any_eq_true]
            refine ⟨c, mem_cells.2 hcc, ?_⟩
            simp only [Bool.and_eq_true, decide_eq_true_eq]
            refine ⟨fun e => drains_land hm hd ((hn.ocean c hcc).1 e), .inr (.inl ?_)⟩
            rw [h2, htm]
      split at hr
      · cases hr
      · next e5 => exact h3 e5

end Verif.River
