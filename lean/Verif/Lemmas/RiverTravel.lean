import Verif.Lemmas.RiverFlow
/-
Travel and basins of `river_regrid`.
-/
namespace Verif.River
open Verif.Spec CheckMask
variable {K : Type*} [Field K] [LinearOrder K] [IsStrictOrderedRing K]

theorem nodup_cells (g : Grid) : (cells g).Nodup := by
  unfold cells
  rw [List.nodup_flatMap]
  constructor
  · intro n _
    rw [List.nodup_flatMap]
    constructor
    · intro j _
      refine List.Nodup.map ?_ List.nodup_range
      intro a b h
      simpa using h
    · refine List.Pairwise.imp ?_ List.nodup_range
      intro j j' hne x hx hx'
      obtain ⟨i, -, rfl⟩ := List.mem_map.1 hx
      obtain ⟨i', -, e⟩ := List.mem_map.1 hx'
      simp at e
      exact hne e.2.symm
  · refine List.Pairwise.imp ?_ List.nodup_range
    intro n n' hne x hx hx'
    obtain ⟨j, -, hx⟩ := List.mem_flatMap.1 hx
    obtain ⟨i, -, rfl⟩ := List.mem_map.1 hx
    obtain ⟨j', -, hx'⟩ := List.mem_flatMap.1 hx'
    obtain ⟨i', -, e⟩ := List.mem_map.1 hx'
    simp at e
    exact hne e.1.symm

theorem countP_lt {α : Type*} {p q : α → Bool} {l : List α} (h : ∀ x ∈ l, p x = true → q x = true)
    (h' : ∃ x ∈ l, q x = true ∧ p x = false) : l.countP p < l.countP q := by
  induction l with
  | nil => simp at h'
  | cons y l ih =>
    have hm : l.countP p ≤ l.countP q := List.countP_mono_left fun x hx => h x (List.mem_cons_of_mem _ hx)
    rw [List.countP_cons, List.countP_cons]
    obtain ⟨x, hx, hq, hp⟩ := h'
    rcases List.mem_cons.1 hx with rfl | hx
    · simp [hq, hp]; omega
    · have := ih (fun x hx => h x (List.mem_cons_of_mem _ hx)) ⟨x, hx, hq, hp⟩
      have hy := h y (by simp)
      by_cases hpy : p y = true
      · simp [hpy, hy hpy]; omega
      · simp [hpy]; omega

section net
variable {g : Grid} {m : Missing K} {landfrac a : Place → K} {tocell dir : Place → Int}

/-! ### Rivers -/

theorem NetOk.flows_unique (h : NetOk g m landfrac a tocell dir) (hg : MeshOk g) (hm : m.tocell < 0) {c d d' : Place}
    (hc : IsCell g c) (hf : FlowsTo g tocell c d) (hf' : FlowsTo g tocell c d') : d = d' := by
  rw [← ((h.flowsTo_iff hg hm hc).1 hf).2, ← ((h.flowsTo_iff hg hm hc).1 hf').2]

theorem flows_pos {c d : Place} (hf : FlowsTo g tocell c d) : 0 < tocell c := by
  obtain ⟨k, -, e, -⟩ := hf
  rw [e]; positivity

theorem drains_cell {mt : Int} {c o : Place} {n : Nat} (h : DrainsTo g mt tocell c n o) : IsCell g c := by
  cases h <;> assumption

theorem drains_land {mt : Int} (hm : mt < 0) {c o : Place} {n : Nat} (h : DrainsTo g mt tocell c n o) :
    tocell c ≠ mt := by
  cases h with
  | sink _ h => omega
  | coast _ h _ => have := flows_pos h; omega
  | step _ h _ _ => have := flows_pos h; omega

theorem NetOk.drains_unique (h : NetOk g m landfrac a tocell dir) (hg : MeshOk g) (hm : m.tocell < 0) {c o o' : Place}
    {n n' : Nat} (h1 : DrainsTo g m.tocell tocell c n o) (h2 : DrainsTo g m.tocell tocell c n' o') :
    n = n' ∧ o = o' := by
  induction h1 generalizing n' o' with
  | sink hc h0 =>
    cases h2 with
    | sink => exact ⟨rfl, rfl⟩
    | coast _ hf _ => have := flows_pos hf; omega
    | step _ hf _ _ => have := flows_pos hf; omega
  | coast hc hf hd =>
    cases h2 with
    | sink _ h0 => have := flows_pos hf; omega
    | coast => exact ⟨rfl, rfl⟩
    | step _ hf' hd' _ =>
      rw [h.flows_unique hg hm hc hf hf'] at hd
      exact absurd hd hd'
  | step hc hf hd _ ih =>
    cases h2 with
    | sink _ h0 => have := flows_pos hf; omega
    | coast _ hf' hd' =>
      rw [h.flows_unique hg hm hc hf hf'] at hd
      exact absurd hd' hd
    | step _ hf' hd' hr =>
      rw [← h.flows_unique hg hm hc hf hf'] at hr
      obtain ⟨rfl, rfl⟩ := ih hr
      exact ⟨rfl, rfl⟩

theorem NetOk.drains_exists (h : NetOk g m landfrac a tocell dir) (hg : MeshOk g) (hm : m.tocell < 0) {c : Place}
    (hc : IsCell g c) (hl : tocell c ≠ m.tocell) : ∃ n o, DrainsTo g m.tocell tocell c n o := by
  have main : ∀ N, ∀ c, IsCell g c → tocell c ≠ m.tocell → (cells g).countP (fun d => decide (a c < a d)) ≤ N →
      ∃ n o, DrainsTo g m.tocell tocell c n o := by
    intro N
    induction N with
    | zero =>
      intro c hc hl hN
      rcases h.kinds c hc with ⟨e, -⟩ | ⟨e, -⟩ | ⟨k, d, hk, e, ed, hd, hs, hcd, ha⟩
      · exact absurd e hl
      · exact ⟨0, c, .sink hc e⟩
      · exfalso
        have : 0 < (cells g).countP (fun d => decide (a c < a d)) :=
          List.countP_pos_iff.2 ⟨d, mem_cells.2 hcd, by simpa using ha⟩
        omega
    | succ N ih =>
      intro c hc hl hN
      rcases h.kinds c hc with ⟨e, -⟩ | ⟨e, -⟩ | ⟨k, d, hk, e, ed, hd, hs, hcd, ha⟩
      · exact absurd e hl
      · exact ⟨0, c, .sink hc e⟩
      · have hf : FlowsTo g tocell c d := ⟨k, hk, e, hd⟩
        by_cases hld : tocell d = m.tocell
        · exact ⟨1, c, .coast hc hf hld⟩
        · have hlt : (cells g).countP (fun x => decide (a d < a x)) < (cells g).countP (fun x => decide (a c < a x)) := by
            apply countP_lt
            · intro x _ hx
              simp only [decide_eq_true_eq] at hx ⊢
              exact ha.trans hx
            · exact ⟨d, mem_cells.2 hcd, by simpa using ha, by simp⟩
          obtain ⟨n, o, hr⟩ := ih d hcd hld (by omega)
          exact ⟨n + 1, o, .step hc hf hld hr⟩
  exact main _ c hc hl le_rfl

theorem NetOk.drains_up (h : NetOk g m landfrac a tocell dir) (hg : MeshOk g) (hm : m.tocell < 0) {c o : Place} {n : Nat}
    (h1 : DrainsTo g m.tocell tocell c n o) : IsCell g o ∧ a c ≤ a o := by
  induction h1 with
  | sink hc h0 => exact ⟨hc, le_rfl⟩
  | coast hc hf hd => exact ⟨hc, le_rfl⟩
  | step hc hf hd _ ih => exact ⟨ih.1, ((h.flows_up hg hm hc hf).2.le).trans ih.2⟩

theorem drains_last {mt : Int} {c o : Place} {n : Nat}
    (h1 : DrainsTo g mt tocell c n o) : ∃ n', DrainsTo g mt tocell o n' o := by
  induction h1 with
  | sink hc h0 => exact ⟨0, .sink hc h0⟩
  | coast hc hf hd => exact ⟨1, .coast hc hf hd⟩
  | step hc hf hd _ ih => exact ih

/-- The test for the end of a river in the first loop. -/
def Ends (m : Missing K) (tocell dir : Place → Int) (c : Place) : Prop :=
  tocell c = 0 ∨ (0 < tocell c ∧ tocell (dest c (dir c)) = m.tocell)

instance (c : Place) : Decidable (Ends m tocell dir c) := by unfold Ends; infer_instance

/-- A river that flows on: `d` is the next cell. -/
theorem NetOk.drains_on (h : NetOk g m landfrac a tocell dir) (hg : MeshOk g) (hm : m.tocell < 0) {c o : Place} {n : Nat}
    (h1 : DrainsTo g m.tocell tocell c n o) (hne : c ≠ o) : ∃ d n', n = n' + 1 ∧ FlowsTo g tocell c d ∧ IsCell g d ∧
      tocell d ≠ m.tocell ∧ DrainsTo g m.tocell tocell d n' o := by
  cases h1 with
  | sink => exact absurd rfl hne
  | coast => exact absurd rfl hne
  | step hc hf hd hr => exact ⟨_, _, rfl, hf, (h.flows_up hg hm hc hf).1, hd, hr⟩

theorem NetOk.ends_iff (h : NetOk g m landfrac a tocell dir) (hg : MeshOk g) (hm : m.tocell < 0) {c o : Place} {n : Nat}
    (h1 : DrainsTo g m.tocell tocell c n o) : Ends m tocell dir c ↔ c = o := by
  have key : ∀ {d}, IsCell g c → FlowsTo g tocell c d → (Ends m tocell dir c ↔ tocell d = m.tocell) := by
    intro d hc hf
    obtain ⟨h0, hs⟩ := (h.flowsTo_iff hg hm hc).1 hf
    have hp := flows_pos hf
    have hcd := (h.flows_up hg hm hc hf).1
    have := (h.at_cell (dest c (dir c)) (by rw [hs]; exact hcd)).1
    rw [hs] at this
    unfold Ends
    rw [this]
    constructor
    · rintro (e | ⟨-, e⟩)
      · omega
      · exact e
    · intro e; exact .inr ⟨hp, e⟩
  cases h1 with
  | sink hc h0 => exact ⟨fun _ => rfl, fun _ => .inl h0⟩
  | coast hc hf hd => exact ⟨fun _ => rfl, fun _ => (key hc hf).2 hd⟩
  | step hc hf hd hr =>
    constructor
    · intro he
      exact absurd ((key hc hf).1 he) hd
    · rintro rfl
      have h1 := (h.drains_up hg hm hr).2
      have h2 := (h.flows_up hg hm hc hf).2
      exact absurd h1 (not_le.2 h2)

theorem NetOk.ends_travel (h : NetOk g m landfrac a tocell dir) (hg : MeshOk g) (hm : m.tocell < 0) {c : Place} {n : Nat}
    (h1 : DrainsTo g m.tocell tocell c n c) : (n : Int) = if tocell c = 0 then 0 else 1 := by
  cases h1 with
  | sink hc h0 => rw [if_pos h0]; rfl
  | coast hc hf hd => rw [if_neg (flows_pos hf).ne']; rfl
  | step hc hf hd hr =>
    have h1 := (h.drains_up hg hm hr).2
    have h2 := (h.flows_up hg hm hc hf).2
    exact absurd h1 (not_le.2 h2)

/-- The end of a river is a cell that drains to itself. -/
theorem NetOk.ends_drains (h : NetOk g m landfrac a tocell dir) (hg : MeshOk g) (hm : m.tocell < 0) {c : Place}
    (hc : IsCell g c) : Ends m tocell dir c ↔ ∃ n, DrainsTo g m.tocell tocell c n c := by
  constructor
  · intro he
    have hl : tocell c ≠ m.tocell := by rcases he with e | ⟨e, -⟩ <;> omega
    obtain ⟨n, o, hd⟩ := h.drains_exists hg hm hc hl
    have := (h.ends_iff hg hm hd).1 he
    subst this
    exact ⟨n, hd⟩
  · rintro ⟨n, hd⟩
    exact (h.ends_iff hg hm hd).2 rfl

end net

/-! ### The first loop -/

section coast
variable {m : Missing K} {tocell dir : Place → Int}

structure CoastInv (m : Missing K) (tocell dir : Place → Int) (l : List Place) (s : Net) : Prop where
  other : ∀ p, (p ∉ l ∨ ¬Ends m tocell dir p) → s.basin p = m.basin ∧ s.travel p = m.travel ∧ s.last p = false
  ends : ∀ p ∈ l, Ends m tocell dir p → 1 ≤ s.basin p ∧ s.basin p ≤ s.cur ∧
    s.travel p = (if tocell p = 0 then 0 else 1) ∧ s.last p = true
  inj : ∀ p ∈ l, Ends m tocell dir p → ∀ q ∈ l, Ends m tocell dir q → s.basin p = s.basin q → p = q
  surj : ∀ b, 1 ≤ b → b ≤ s.cur → ∃ p ∈ l, Ends m tocell dir p ∧ s.basin p = b
  cur : 0 ≤ s.cur

omit [Field K] [LinearOrder K] [IsStrictOrderedRing K] in
theorem coastStep_eq (s : Net) (c : Place) : coastStep m tocell dir s c =
    if Ends m tocell dir c then ⟨setAt s.basin c (s.cur + 1), setAt s.travel c (if tocell c = 0 then 0 else 1),
      setAt s.last c true, s.cur + 1⟩ else s := by
  unfold coastStep Ends
  by_cases h0 : tocell c = 0
  · simp [h0]
  · by_cases h1 : tocell c > 0
    · by_cases h2 : tocell (dest c (dir c)) = m.tocell
      · simp [h0, h1, h2]
      · simp [h0, h1, h2]
    · simp [h0, h1]

omit [Field K] [LinearOrder K] [IsStrictOrderedRing K] in
theorem coast_inv (l : List Place) (hl : l.Nodup) : CoastInv m tocell dir l
    (l.foldl (coastStep m tocell dir) ⟨fun _ => m.basin, fun _ => m.travel, fun _ => false, 0⟩) := by
  induction l using List.reverseRecOn with
  | nil =>
    refine ⟨fun p _ => ⟨rfl, rfl, rfl⟩, by simp, by simp, ?_, le_rfl⟩
    intro b h1 h2
    simp only [List.foldl_nil] at h2
    omega
  | append_singleton l x ih =>
    rw [List.nodup_append] at hl
    obtain ⟨hl1, -, hl2⟩ := hl
    have hx : x ∉ l := fun h => hl2 x h x (by simp) rfl
    have ih := ih hl1
    simp only [List.foldl_append, List.foldl_cons, List.foldl_nil]
    generalize l.foldl (coastStep m tocell dir) ⟨fun _ => m.basin, fun _ => m.travel, fun _ => false, 0⟩ = s at ih
    rw [coastStep_eq]
    by_cases he : Ends m tocell dir x
    · rw [if_pos he]
      have hb : ∀ p, p ≠ x → setAt s.basin x (s.cur + 1) p = s.basin p := fun p h => by simp [setAt, h]
      have ht : ∀ p, p ≠ x → setAt s.travel x (if tocell x = 0 then 0 else 1) p = s.travel p :=
        fun p h => by simp [setAt, h]
      have hla : ∀ p, p ≠ x → setAt s.last x true p = s.last p := fun p h => by simp [setAt, h]
      have hbx : setAt s.basin x (s.cur + 1) x = s.cur + 1 := by simp [setAt]
      have hcases : ∀ p ∈ l ++ [x], (p ∈ l ∧ p ≠ x) ∨ p = x := by
        intro p hp
        rcases List.mem_append.1 hp with hp | hp
        · exact .inl ⟨hp, fun e => hx (e ▸ hp)⟩
        · exact .inr (List.mem_singleton.1 hp)
      refine ⟨?_, ?_, ?_, ?_, ?_⟩
      · intro p hp
        have hne : p ≠ x := by
          rintro rfl
          rcases hp with hp | hp
          · exact hp (by simp)
          · exact hp he
        simp only
        rw [hb p hne, ht p hne, hla p hne]
        exact ih.other p (hp.imp (fun h h' => h (List.mem_append_left _ h')) id)
      · intro p hp hpe
        simp only
        rcases hcases p hp with ⟨hp, hne⟩ | rfl
        · rw [hb p hne, ht p hne, hla p hne]
          obtain ⟨h1, h2, h3⟩ := ih.ends p hp hpe
          exact ⟨h1, by omega, h3⟩
        · rw [hbx]
          have := ih.cur
          refine ⟨by omega, le_rfl, by simp [setAt], by simp [setAt]⟩
      · intro p hp hpe q hq hqe
        simp only
        rcases hcases p hp with ⟨hp1, hne⟩ | hp1 <;> rcases hcases q hq with ⟨hq1, hne'⟩ | hq1
        · rw [hb p hne, hb q hne']; exact ih.inj p hp1 hpe q hq1 hqe
        · rw [hb p hne, hq1, hbx]
          intro e
          have := (ih.ends p hp1 hpe).2.1
          omega
        · rw [hb q hne', hp1, hbx]
          intro e
          have := (ih.ends q hq1 hqe).2.1
          omega
        · intro _; rw [hp1, hq1]
      · intro b h1 h2
        simp only at h2 ⊢
        by_cases hbc : b = s.cur + 1
        · exact ⟨x, by simp, he, by rw [hbx, hbc]⟩
        · obtain ⟨p, hp, hpe, e⟩ := ih.surj b h1 (by omega)
          exact ⟨p, List.mem_append_left _ hp, hpe, by rw [hb p (fun e => hx (e ▸ hp)), e]⟩
      · have := ih.cur
        simp only
        omega
    · rw [if_neg he]
      have hmem : ∀ p, p ∈ l ++ [x] → Ends m tocell dir p → p ∈ l := by
        intro p hp hpe
        rcases List.mem_append.1 hp with hp | hp
        · exact hp
        · rw [List.mem_singleton.1 hp] at hpe; exact absurd hpe he
      refine ⟨?_, ?_, ?_, ?_, ih.cur⟩
      · intro p hp
        exact ih.other p (hp.imp (fun h h' => h (List.mem_append_left _ h')) id)
      · intro p hp hpe; exact ih.ends p (hmem p hp hpe) hpe
      · intro p hp hpe q hq hqe; exact ih.inj p (hmem p hp hpe) hpe q (hmem q hq hqe) hqe
      · intro b h1 h2
        obtain ⟨p, hp, hpe, e⟩ := ih.surj b h1 h2
        exact ⟨p, List.mem_append_left _ hp, hpe, e⟩

end coast

/-! ### The passes -/

section pass
variable {g : Grid} {m : Missing K} {landfrac a : Place → K} {tocell dir : Place → Int}

/-- The state before pass `k`; `β` are the basins of the last points. -/
structure PassInv (g : Grid) (m : Missing K) (tocell : Place → Int) (β : Place → Int) (k : Nat)
    (basin travel : Place → Int) : Prop where
  halo : ∀ p, IsCell g (src g p) → basin p = basin (src g p) ∧ travel p = travel (src g p)
  ocean : ∀ c, IsCell g c → tocell c = m.tocell → basin c = m.basin ∧ travel c = m.travel
  done : ∀ c n o, DrainsTo g m.tocell tocell c n o → (n ≤ k ∨ c = o) → basin c = β o ∧ travel c = n
  todo : ∀ c n o, DrainsTo g m.tocell tocell c n o → k < n → c ≠ o → basin c = m.basin ∧ travel c = m.travel

/-- The cells that get a value in pass `k`. -/
def New (m : Missing K) (dir basin travel : Place → Int) (k : Int) (c : Place) : Prop :=
  0 ≤ dir c ∧ basin c = m.basin ∧ travel (dest c (dir c)) = k

instance (basin travel : Place → Int) (k : Int) (c : Place) : Decidable (New m dir basin travel k c) := by
  unfold New; infer_instance

structure StepInv (m : Missing K) (dir b0 t0 : Place → Int) (k : Int) (l : List Place) (s : PassSt) : Prop where
  basin : ∀ p, s.basin p = if p ∈ l ∧ New m dir b0 t0 k p then b0 (dest p (dir p)) else b0 p
  travel : ∀ p, s.travel p = if p ∈ l ∧ New m dir b0 t0 k p then k + 1 else t0 p
  notDone : s.notDone = true ↔ ∃ p ∈ l, New m dir b0 t0 k p

omit [Field K] [LinearOrder K] [IsStrictOrderedRing K] in
theorem pass_steps {b0 t0 : Place → Int} {k : Int}
    (hd : ∀ c, IsCell g c → 0 ≤ dir c → t0 (dest c (dir c)) = k → b0 (dest c (dir c)) ≠ m.basin)
    (l : List Place) (hl : l.Nodup) (hc : ∀ c ∈ l, IsCell g c) :
    ∃ s, l.foldlM (passStep m dir k) ⟨b0, t0, false⟩ = .ok s ∧ StepInv m dir b0 t0 k l s := by
  induction l using List.reverseRecOn with
  | nil => exact ⟨_, rfl, by simp, by simp, by simp⟩
  | append_singleton l x ih =>
    rw [List.nodup_append] at hl
    obtain ⟨hl1, -, hl2⟩ := hl
    have hx : x ∉ l := fun h => hl2 x h x (by simp) rfl
    obtain ⟨s, e, hs⟩ := ih hl1 (fun c h => hc c (List.mem_append_left _ h))
    have hcx : IsCell g x := hc x (by simp)
    rw [List.foldlM_append, e]
    simp only [List.foldlM_cons, List.foldlM_nil]
    have hbx : s.basin x = b0 x := by rw [hs.basin, if_neg (fun h => hx h.1)]
    -- the value at the destination
    have hdest : 0 ≤ dir x → s.travel (dest x (dir x)) = k → t0 (dest x (dir x)) = k ∧
        s.basin (dest x (dir x)) = b0 (dest x (dir x)) := by
      intro h0 ht
      rw [hs.travel] at ht
      by_cases hq : dest x (dir x) ∈ l ∧ New m dir b0 t0 k (dest x (dir x))
      · rw [if_pos hq] at ht; omega
      · rw [if_neg hq] at ht
        rw [hs.basin, if_neg hq]
        exact ⟨ht, rfl⟩
    have hdest' : 0 ≤ dir x → t0 (dest x (dir x)) = k → s.travel (dest x (dir x)) = k := by
      intro h0 ht
      rw [hs.travel, if_neg]
      · exact ht
      · rintro ⟨-, hn⟩
        exact hd x hcx h0 ht hn.2.1
    have hnew : (dir x ≥ 0 ∧ s.basin x = m.basin ∧ s.travel (dest x (dir x)) = k) ↔ New m dir b0 t0 k x := by
      unfold New
      rw [hbx]
      constructor
      · rintro ⟨h1, h2, h3⟩; exact ⟨h1, h2, (hdest h1 h3).1⟩
      · rintro ⟨h1, h2, h3⟩; exact ⟨h1, h2, hdest' h1 h3⟩
    by_cases hN : New m dir b0 t0 k x
    · obtain ⟨h1, h2, h3⟩ := hnew.2 hN
      obtain ⟨h4, h5⟩ := hdest h1 h3
      have h6 := hd x hcx h1 h4
      refine ⟨⟨setAt s.basin x (b0 (dest x (dir x))), setAt s.travel x (k + 1), true⟩, ?_, ?_, ?_, ?_⟩
      · show (passStep m dir k s x >>= fun s' => pure s') = _
        unfold passStep
        rw [if_pos ⟨h1, h2⟩]
        simp only
        rw [if_pos h3, h5, if_neg h6]
        rfl
      · intro p
        by_cases hp : p = x
        · subst hp; simp [setAt, hN]
        · simp [setAt, hp, hs.basin]
      · intro p
        by_cases hp : p = x
        · subst hp; simp [setAt, hN]
        · simp [setAt, hp, hs.travel]
      · simp only [true_iff]
        exact ⟨x, by simp, hN⟩
    · refine ⟨s, ?_, ?_, ?_, ?_⟩
      · show (passStep m dir k s x >>= fun s' => pure s') = _
        unfold passStep
        by_cases h12 : dir x ≥ 0 ∧ s.basin x = m.basin
        · rw [if_pos h12]
          simp only
          rw [if_neg (fun h3 => hN (hnew.1 ⟨h12.1, h12.2, h3⟩))]
          rfl
        · rw [if_neg h12]; rfl
      · intro p
        by_cases hp : p = x
        · subst hp; simp [hN, hbx]
        · simp [hp, hs.basin]
      · intro p
        by_cases hp : p = x
        · subst hp; rw [hs.travel]; simp [hN]
        · simp [hp, hs.travel]
      · rw [hs.notDone]
        constructor
        · rintro ⟨p, hp, h⟩; exact ⟨p, List.mem_append_left _ hp, h⟩
        · rintro ⟨p, hp, h⟩
          rcases List.mem_append.1 hp with hp | hp
          · exact ⟨p, hp, h⟩
          · rw [List.mem_singleton.1 hp] at h; exact absurd h hN

theorem pass_inv (hn : NetOk g m landfrac a tocell dir) (hg : MeshOk g) (hm : m.tocell < 0) (htr : m.travel < 0)
    (hba : m.basin < 0) {β : Place → Int} (hβ : ∀ o n, DrainsTo g m.tocell tocell o n o → 1 ≤ β o) {k : Nat}
    {b0 t0 : Place → Int} (hi : PassInv g m tocell β k b0 t0) :
    (∃ s, (cells g).foldlM (passStep m dir k) ⟨b0, t0, false⟩ = .ok s ∧
      PassInv g m tocell β (k + 1) (updateHalo g s.basin) (updateHalo g s.travel) ∧
      (s.notDone = true ↔ ∃ c o, DrainsTo g m.tocell tocell c (k + 1) o ∧ c ≠ o)) := by
  have hval : ∀ d, IsCell g d → 0 ≤ t0 d → b0 d ≠ m.basin := by
    intro d hd h0
    by_cases hl : tocell d = m.tocell
    · have := (hi.ocean d hd hl).2; omega
    · obtain ⟨n, o, hr⟩ := hn.drains_exists hg hm hd hl
      obtain ⟨n', ho⟩ := drains_last hr
      by_cases hdn : n ≤ k ∨ d = o
      · rw [(hi.done d n o hr hdn).1]
        have := hβ o n' ho
        omega
      · have := (hi.todo d n o hr (by omega) (fun e => hdn (.inr e))).2
        omega
  have hflow : ∀ c, IsCell g c → 0 ≤ dir c → FlowsTo g tocell c (src g (dest c (dir c))) ∧
      IsCell g (src g (dest c (dir c))) := by
    intro c hc h0
    have hf := (hn.flowsTo_iff hg hm hc).2 ⟨h0, rfl⟩
    exact ⟨hf, (hn.flows_up hg hm hc hf).1⟩
  obtain ⟨s, e, hs⟩ := pass_steps (g := g) (m := m) (dir := dir) (b0 := b0) (t0 := t0) (k := (k : Int))
    (fun c hc h0 ht => by
      obtain ⟨-, hcd⟩ := hflow c hc h0
      obtain ⟨hh1, hh2⟩ := hi.halo _ hcd
      rw [hh1]
      exact hval _ hcd (by rw [← hh2, ht]; omega)) (cells g) (nodup_cells g) (fun c hc => mem_cells.1 hc)
  -- which cells are new
  have hnew : ∀ c, IsCell g c → (New m dir b0 t0 k c ↔ ∃ o, DrainsTo g m.tocell tocell c (k + 1) o ∧ c ≠ o) := by
    intro c hc
    constructor
    · rintro ⟨h0, hb, ht⟩
      obtain ⟨hf, hcd⟩ := hflow c hc h0
      obtain ⟨n, o, hr⟩ := hn.drains_exists hg hm hc (by have := flows_pos hf; omega)
      have hne : c ≠ o := by
        rintro rfl
        have := (hi.done c n c hr (.inr rfl)).1
        have := hβ c n hr
        omega
      obtain ⟨d, n', rfl, hf', hcd', hld, hr'⟩ := hn.drains_on hg hm hr hne
      have := hn.flows_unique hg hm hc hf' hf
      subst this
      rw [(hi.halo _ hcd).2] at ht
      by_cases hdn : n' ≤ k ∨ src g (dest c (dir c)) = o
      · have := (hi.done _ n' o hr' hdn).2
        have : n' = k := by omega
        subst this
        exact ⟨o, hr, hne⟩
      · have := (hi.todo _ n' o hr' (by omega) (fun e => hdn (.inr e))).2
        omega
    · rintro ⟨o, hr, hne⟩
      obtain ⟨d, n', hk, hf', hcd', hld, hr'⟩ := hn.drains_on hg hm hr hne
      have : n' = k := by omega
      subst this
      obtain ⟨h0, hs'⟩ := (hn.flowsTo_iff hg hm hc).1 hf'
      refine ⟨h0, (hi.todo c _ o hr (by omega) hne).1, ?_⟩
      rw [(hi.halo _ (by rw [hs']; exact hcd')).2, hs']
      exact (hi.done d n' o hr' (.inl le_rfl)).2
  have hcell : ∀ {V : Type} (w : Place → V) (c : Place), IsCell g c → updateHalo g w c = w c := by
    intro V w c hc; rw [updateHalo_eq, src_cell hg hc]
  refine ⟨s, e, ⟨?_, ?_, ?_, ?_⟩, ?_⟩
  · intro p hp
    rw [updateHalo_eq g s.basin p, updateHalo_eq g s.travel p, hcell _ _ hp, hcell _ _ hp]
    exact ⟨rfl, rfl⟩
  · intro c hc hl
    have hN : ¬New m dir b0 t0 k c := by
      rw [hnew c hc]
      rintro ⟨o, hr, -⟩
      exact drains_land hm hr hl
    rw [hcell _ c hc, hcell _ c hc, hs.basin, hs.travel, if_neg (fun h => hN h.2), if_neg (fun h => hN h.2)]
    exact hi.ocean c hc hl
  · intro c n o hr hdn
    have hc := drains_cell hr
    rw [hcell _ c hc, hcell _ c hc, hs.basin, hs.travel]
    by_cases hold : n ≤ k ∨ c = o
    · have hN : ¬New m dir b0 t0 k c := by
        rw [hnew c hc]
        rintro ⟨o', hr', hne⟩
        obtain ⟨h1, h2⟩ := hn.drains_unique hg hm hr hr'
        subst h2
        rcases hold with h | h
        · omega
        · exact hne h
      rw [if_neg (fun h => hN h.2), if_neg (fun h => hN h.2)]
      exact hi.done c n o hr hold
    · have hn1 : n = k + 1 := by
        rcases hdn with h | h
        · by_contra hne
          exact hold (.inl (by omega))
        · exact absurd (.inr h) hold
      subst hn1
      have hne : c ≠ o := fun h => hold (.inr h)
      have hN : New m dir b0 t0 k c := (hnew c hc).2 ⟨o, hr, hne⟩
      rw [if_pos ⟨mem_cells.2 hc, hN⟩, if_pos ⟨mem_cells.2 hc, hN⟩]
      obtain ⟨d, n', hk, hf', hcd', hld, hr'⟩ := hn.drains_on hg hm hr hne
      have : n' = k := by omega
      subst this
      obtain ⟨h0, hs'⟩ := (hn.flowsTo_iff hg hm hc).1 hf'
      refine ⟨?_, by push_cast; rfl⟩
      rw [(hi.halo _ (by rw [hs']; exact hcd')).1, hs']
      exact (hi.done d n' o hr' (.inl le_rfl)).1
  · intro c n o hr hk hne
    have hc := drains_cell hr
    have hN : ¬New m dir b0 t0 k c := by
      rw [hnew c hc]
      rintro ⟨o', hr', -⟩
      have := (hn.drains_unique hg hm hr hr').1
      omega
    rw [hcell _ c hc, hcell _ c hc, hs.basin, hs.travel, if_neg (fun h => hN h.2), if_neg (fun h => hN h.2)]
    exact hi.todo c n o hr (by omega) hne
  · rw [hs.notDone]
    constructor
    · rintro ⟨p, hp, h⟩
      obtain ⟨o, hr⟩ := (hnew p (mem_cells.1 hp)).1 h
      exact ⟨p, o, hr⟩
    · rintro ⟨c, o, hr⟩
      have hc := drains_cell hr.1
      exact ⟨c, mem_cells.2 hc, (hnew c hc).2 ⟨o, hr⟩⟩

/-- The loop ends, and nothing is found at the end. -/
theorem travelLoop_ok (hn : NetOk g m landfrac a tocell dir) (hg : MeshOk g) (hm : m.tocell < 0) (htr : m.travel < 0)
    (hba : m.basin < 0) {β : Place → Int} (hβ : ∀ o n, DrainsTo g m.tocell tocell o n o → 1 ≤ β o) (fuel : Nat)
    (k : Nat) (b t : Place → Int) (hi : PassInv g m tocell β k b t)
    (hf : (cells g).countP (fun c => decide (b c = m.basin)) < fuel) :
    ∃ k' b' t', travelLoop g m dir fuel k b t = .ok (b', t') ∧ k ≤ k' ∧ PassInv g m tocell β (k' + 1) b' t' ∧
      (∀ j, k ≤ j → j < k' → ∃ c o, DrainsTo g m.tocell tocell c (j + 1) o ∧ c ≠ o) ∧
      ¬∃ c o, DrainsTo g m.tocell tocell c (k' + 1) o ∧ c ≠ o := by
  induction fuel generalizing k b t with
  | zero => omega
  | succ fuel ih =>
    obtain ⟨s, e, hp, hd⟩ := pass_inv hn hg hm htr hba hβ hi
    unfold travelLoop
    rw [e]
    simp only
    by_cases hnd : s.notDone = true
    · rw [if_pos hnd]
      have hnd' := hd.1 hnd
      have hlt : (cells g).countP (fun c => decide (updateHalo g s.basin c = m.basin)) <
          (cells g).countP (fun c => decide (b c = m.basin)) := by
        apply countP_lt
        · intro c hc hb
          rw [mem_cells] at hc
          simp only [decide_eq_true_eq] at hb ⊢
          by_cases hl : tocell c = m.tocell
          · exact (hi.ocean c hc hl).1
          · obtain ⟨n, o, hr⟩ := hn.drains_exists hg hm hc hl
            obtain ⟨n', ho⟩ := drains_last hr
            by_cases hold : n ≤ k + 1 ∨ c = o
            · have := (hp.done c n o hr hold).1
              have := hβ o n' ho
              omega
            · exact (hi.todo c n o hr (by omega) (fun h => hold (.inr h))).1
        · obtain ⟨c, o, hr, hne⟩ := hnd'
          obtain ⟨n', ho⟩ := drains_last hr
          refine ⟨c, mem_cells.2 (drains_cell hr), ?_, ?_⟩
          · simpa using (hi.todo c _ o hr (by omega) hne).1
          · have := (hp.done c _ o hr (.inl le_rfl)).1
            have := hβ o n' ho
            simp only [decide_eq_false_iff_not]
            omega
      obtain ⟨k', b', t', e', hk', hp', hall, hno⟩ := ih (k + 1) _ _ hp (by omega)
      refine ⟨k', b', t', ?_, by omega, hp', ?_, hno⟩
      · rw [← e']; norm_cast
      · intro j hj1 hj2
        by_cases hjk : j = k
        · subst hjk; exact hnd'
        · exact hall j (by omega) hj2
    · rw [if_neg hnd]
      exact ⟨k, _, _, rfl, le_rfl, hp, fun j h1 h2 => by omega, fun h => hnd (hd.2 h)⟩

/-- The state before the first pass. -/
theorem coast_pass (hn : NetOk g m landfrac a tocell dir) (hg : MeshOk g) (hm : m.tocell < 0) :
    PassInv g m tocell (coast g m tocell dir).basin 0 (coast g m tocell dir).basin (coast g m tocell dir).travel := by
  have hI := coast_inv (m := m) (tocell := tocell) (dir := dir) (cells g) (nodup_cells g)
  unfold coast
  simp only
  generalize (cells g).foldl (coastStep m tocell dir) ⟨fun _ => m.basin, fun _ => m.travel, fun _ => false, 0⟩ = s at hI
  have hcell : ∀ {V : Type} (w : Place → V) (c : Place), IsCell g c → updateHalo g w c = w c := by
    intro V w c hc; rw [updateHalo_eq, src_cell hg hc]
  refine ⟨?_, ?_, ?_, ?_⟩
  · intro p hp
    rw [updateHalo_eq g s.basin p, updateHalo_eq g s.travel p, hcell _ _ hp, hcell _ _ hp]
    exact ⟨rfl, rfl⟩
  · intro c hc hl
    rw [hcell _ c hc, hcell _ c hc]
    obtain ⟨h1, h2, -⟩ := hI.other c (.inr (by rintro (e | ⟨e, -⟩) <;> omega))
    exact ⟨h1, h2⟩
  · intro c n o hr hdn
    have hc := drains_cell hr
    have hco : c = o := by
      rcases hdn with h | h
      · cases hr with
        | sink => rfl
        | coast => rfl
        | step => omega
      · exact h
    subst hco
    have he : Ends m tocell dir c := (hn.ends_iff hg hm hr).2 rfl
    rw [hcell _ c hc, hcell _ c hc, (hI.ends c (mem_cells.2 hc) he).2.2.1, hn.ends_travel hg hm hr]
    exact ⟨rfl, rfl⟩
  · intro c n o hr _ hne
    have hc := drains_cell hr
    rw [hcell _ c hc, hcell _ c hc]
    obtain ⟨h1, h2, -⟩ := hI.other c (.inr (fun he => hne ((hn.ends_iff hg hm hr).1 he)))
    exact ⟨h1, h2⟩

/-- The last points and their basins. -/
theorem coast_last (hn : NetOk g m landfrac a tocell dir) (hg : MeshOk g) (hm : m.tocell < 0) :
    ∃ N : Int, 0 ≤ N ∧
    (∀ c, IsCell g c → ((coast g m tocell dir).last c = true ↔ ∃ n, DrainsTo g m.tocell tocell c n c)) ∧
    (∀ o n, DrainsTo g m.tocell tocell o n o →
      1 ≤ (coast g m tocell dir).basin o ∧ (coast g m tocell dir).basin o ≤ N) ∧
    (∀ o o' n n', DrainsTo g m.tocell tocell o n o → DrainsTo g m.tocell tocell o' n' o' →
      (coast g m tocell dir).basin o = (coast g m tocell dir).basin o' → o = o') ∧
    (∀ b, 1 ≤ b → b ≤ N → ∃ o n, DrainsTo g m.tocell tocell o n o ∧ (coast g m tocell dir).basin o = b) := by
  have hI := coast_inv (m := m) (tocell := tocell) (dir := dir) (cells g) (nodup_cells g)
  unfold coast
  simp only
  generalize (cells g).foldl (coastStep m tocell dir) ⟨fun _ => m.basin, fun _ => m.travel, fun _ => false, 0⟩ = s at hI
  have hcell : ∀ {V : Type} (w : Place → V) (c : Place), IsCell g c → updateHalo g w c = w c := by
    intro V w c hc; rw [updateHalo_eq, src_cell hg hc]
  have he : ∀ {o n}, DrainsTo g m.tocell tocell o n o → Ends m tocell dir o := fun hr => (hn.ends_iff hg hm hr).2 rfl
  refine ⟨s.cur, hI.cur, ?_, ?_, ?_, ?_⟩
  · intro c hc
    rw [← hn.ends_drains hg hm hc]
    constructor
    · intro h
      by_contra hno
      rw [(hI.other c (.inr hno)).2.2] at h
      cases h
    · intro h
      exact (hI.ends c (mem_cells.2 hc) h).2.2.2
  · intro o n hr
    have hc := drains_cell hr
    rw [hcell _ o hc]
    have := hI.ends o (mem_cells.2 hc) (he hr)
    exact ⟨this.1, this.2.1⟩
  · intro o o' n n' hr hr'
    have hc := drains_cell hr
    have hc' := drains_cell hr'
    rw [hcell _ o hc, hcell _ o' hc']
    exact hI.inj o (mem_cells.2 hc) (he hr) o' (mem_cells.2 hc') (he hr')
  · intro b h1 h2
    obtain ⟨p, hp, hpe, e⟩ := hI.surj b h1 h2
    have hc := mem_cells.1 hp
    obtain ⟨n, hr⟩ := (hn.ends_drains hg hm hc).1 hpe
    exact ⟨p, n, hr, by rw [hcell _ p hc, e]⟩

end pass

end Verif.River
