import Verif.Lemmas.RiverTravel
import Verif.Lemmas.RiverInflow
import Mathlib.Algebra.BigOperators.Group.Finset.Basic
import Mathlib.Algebra.BigOperators.Group.Finset.Sigma
/-
Drained areas of `river_regrid`.
-/
namespace Verif.River
open Verif.Spec CheckMask Relation
variable {K : Type*} [Field K] [LinearOrder K] [IsStrictOrderedRing K]

theorem mem_cellSet {g : Grid} {c : Place} : c ∈ cellSet g ↔ IsCell g c := by
  simp only [cellSet, Finset.mem_product, Finset.mem_range, Finset.mem_Icc, IsCell]
  constructor
  · rintro ⟨h1, ⟨h2, h3⟩, h4, h5⟩; exact ⟨h1, h2, h3, h4, h5⟩
  · rintro ⟨h1, h2, h3, h4, h5⟩; exact ⟨h1, ⟨h2, h3⟩, h4, h5⟩

section net
variable {g : Grid} {m : Missing K} {landfrac a : Place → K} {tocell dir : Place → Int}

/-! ### The set of cells that drain through a cell -/

theorem NetOk.reach_up (h : NetOk g m landfrac a tocell dir) (hg : MeshOk g) (hm : m.tocell < 0) {x c : Place}
    (hx : IsCell g x) (hr : ReflTransGen (FlowsTo g tocell) x c) : IsCell g c ∧ a x ≤ a c := by
  induction hr with
  | refl => exact ⟨hx, le_rfl⟩
  | tail _ hf ih =>
    have := h.flows_up hg hm ih.1 hf
    exact ⟨this.1, ih.2.trans this.2.le⟩

/-- Two cells downstream of the same cell: one is upstream of the other. -/
theorem NetOk.reach_total (h : NetOk g m landfrac a tocell dir) (hg : MeshOk g) (hm : m.tocell < 0) {x c d : Place}
    (hx : IsCell g x) (hc : ReflTransGen (FlowsTo g tocell) x c) (hd : ReflTransGen (FlowsTo g tocell) x d) :
    ReflTransGen (FlowsTo g tocell) c d ∨ ReflTransGen (FlowsTo g tocell) d c := by
  induction hc with
  | refl => exact .inl hd
  | tail hxb hf ih =>
    have hcb := (h.reach_up hg hm hx hxb).1
    rcases ih with ih | ih
    · rcases ReflTransGen.cases_head ih with rfl | ⟨b', hf', hr⟩
      · exact .inr (.single hf)
      · rw [h.flows_unique hg hm hcb hf hf']
        exact .inl hr
    · exact .inr (ih.tail hf)

theorem NetOk.disjoint (h : NetOk g m landfrac a tocell dir) (hg : MeshOk g) (hm : m.tocell < 0) {x q q' c : Place}
    (hx : IsCell g x) (hq : IsCell g q) (hf : FlowsTo g tocell q c) (hf' : FlowsTo g tocell q' c)
    (hr : ReflTransGen (FlowsTo g tocell) x q) (hr' : ReflTransGen (FlowsTo g tocell) x q') : q = q' := by
  have key : ∀ {q q' : Place}, IsCell g q → IsCell g q' → FlowsTo g tocell q c → FlowsTo g tocell q' c →
      ReflTransGen (FlowsTo g tocell) q q' → q = q' := by
    intro q q' hq hq' hf hf' hqq
    rcases ReflTransGen.cases_head hqq with e | ⟨b, hfb, hr⟩
    · exact e
    · rw [← h.flows_unique hg hm hq hf hfb] at hr
      have h1 := (h.flows_up hg hm hq hf).1
      have h2 := (h.reach_up hg hm h1 hr).2
      have h3 := (h.flows_up hg hm hq' hf').2
      exact absurd h2 (not_le.2 h3)
  have hq' := (h.reach_up hg hm hx hr').1
  rcases h.reach_total hg hm hx hr hr' with h1 | h1
  · exact key hq hq' hf hf' h1
  · exact (key hq' hq hf' hf h1).symm

open Classical in
/-- The area drained through a cell is its own and that of the cells that flow into it. -/
theorem NetOk.drained_eq (h : NetOk g m landfrac a tocell dir) (hg : MeshOk g) (hm : m.tocell < 0) (w : Place → K)
    {c : Place} (hc : IsCell g c) :
    drained g tocell w c = w c + ∑ q ∈ cellSet g with FlowsTo g tocell q c, drained g tocell w q := by
  unfold drained
  rw [← Finset.sum_biUnion]
  · rw [← Finset.sum_insert]
    · apply Finset.sum_congr _ (fun _ _ => rfl)
      ext x
      simp only [Finset.mem_filter, Finset.mem_insert, Finset.mem_biUnion, mem_cellSet]
      constructor
      · rintro ⟨hx, hr⟩
        rcases ReflTransGen.cases_tail hr with e | ⟨q, hr', hf⟩
        · exact .inl e.symm
        · exact .inr ⟨q, ⟨(h.reach_up hg hm hx hr').1, hf⟩, hx, hr'⟩
      · rintro (rfl | ⟨q, ⟨hq, hf⟩, hx, hr⟩)
        · exact ⟨hc, .refl⟩
        · exact ⟨hx, hr.tail hf⟩
    · simp only [Finset.mem_biUnion, Finset.mem_filter, mem_cellSet, not_exists, not_and]
      rintro q ⟨hq, hf⟩ - hr
      have h1 := (h.reach_up hg hm hc hr).2
      have h2 := (h.flows_up hg hm hq hf).2
      exact absurd h1 (not_le.2 h2)
  · intro q hq q' hq' hne
    simp only [Finset.coe_filter, Set.mem_setOf_eq, mem_cellSet] at hq hq'
    rw [Function.onFun, Finset.disjoint_left]
    intro x hx hx'
    simp only [Finset.mem_filter, mem_cellSet] at hx hx'
    exact hne (h.disjoint hg hm hx.1 hq.1 hq.2 hq'.2 hx.2 hx'.2)

/-! ### The sum over the neighbours -/

theorem foldl_addIf {α : Type*} (P : α → Prop) [DecidablePred P] (f : α → K) (l : List α) (b : K) :
    l.foldl (fun acc o => if P o then acc + f o else acc) b = b + ((l.filter P).map f).sum := by
  induction l generalizing b with
  | nil => simp
  | cons x l ih =>
    rw [List.foldl_cons, ih]
    by_cases hx : P x
    · simp [hx, add_assoc]
    · simp [hx]

/-- The neighbour `o` flows into `c`. -/
def Inflow (g : Grid) (dir : Place → Int) (c : Place) (o : Nat × Nat) : Prop :=
  dir (around c o) ≥ 0 ∧ dest (around c o) (rotated g (around c o) (dir (around c o))) = c

instance (c : Place) (o : Nat × Nat) : Decidable (Inflow g dir c o) := by unfold Inflow; infer_instance

theorem NetOk.dir_cell (h : NetOk g m landfrac a tocell dir) {p : Place} (hp : dir p ≥ 0) :
    IsCell g (src g p) ∧ ∃ k : Nat, k < 8 ∧ dir p = k ∧ dir (src g p) = k := by
  by_cases hs : IsCell g (src g p)
  · have e := (h.at_cell p hs).2
    rw [e] at hp
    rcases h.kinds _ hs with ⟨-, e'⟩ | ⟨-, e'⟩ | ⟨k, d, hk, -, e', -⟩
    · omega
    · omega
    · exact ⟨hs, k, hk, by rw [e, e'], e'⟩
  · have := (h.at_other p hs).2
    omega

theorem NetOk.inflow_flows (h : NetOk g m landfrac a tocell dir) (hg : MeshOk g) (hm : m.tocell < 0) {c : Place}
    (hc : IsCell g c) {o : Nat × Nat} (ho : o ∈ offsets) (hi : Inflow g dir c o) :
    IsCell g (src g (around c o)) ∧ FlowsTo g tocell (src g (around c o)) c := by
  obtain ⟨h1, h2⟩ := hi
  obtain ⟨hs, k, hk, e, e'⟩ := h.dir_cell h1
  rw [e] at h2
  have := River.inflow_flows hg hc ho hs hk h2
  refine ⟨hs, (h.flowsTo_iff hg hm hs).2 ⟨by omega, ?_⟩⟩
  rw [e']; exact this

open Classical in
theorem NetOk.inflow_perm (h : NetOk g m landfrac a tocell dir) (hg : MeshOk g) (hm : m.tocell < 0) (f : Place → K)
    {c : Place} (hc : IsCell g c) :
    ((offsets.filter (Inflow g dir c)).map fun o => f (src g (around c o))).sum =
      ∑ q ∈ cellSet g with FlowsTo g tocell q c, f q := by
  have hnd : ((offsets.filter (Inflow g dir c)).map fun o => src g (around c o)).Nodup := by
    refine List.Nodup.map_on ?_ (List.Nodup.filter _ (by decide))
    intro o ho o' ho' he
    obtain ⟨ho, hi⟩ := List.mem_filter.1 ho
    obtain ⟨ho', hi'⟩ := List.mem_filter.1 ho'
    have hi : Inflow g dir c o := by simpa using hi
    have hi' : Inflow g dir c o' := by simpa using hi'
    obtain ⟨hs, k, hk, e, e'⟩ := h.dir_cell hi.1
    obtain ⟨hs2, k2, hk2, e2, e2'⟩ := h.dir_cell hi'.1
    have hkk : k = k2 := by
      rw [he, e2'] at e'
      omega
    subst hkk
    have h1 := hi.2
    have h2 := hi'.2
    rw [e] at h1
    rw [e2] at h2
    exact inflow_unique hg hc ho ho' hs he hk h1 h2
  have hset : (cellSet g).filter (fun q => FlowsTo g tocell q c) =
      ((offsets.filter (Inflow g dir c)).map fun o => src g (around c o)).toFinset := by
    ext q
    simp only [Finset.mem_filter, mem_cellSet, List.mem_toFinset, List.mem_map, List.mem_filter, decide_eq_true_eq]
    constructor
    · rintro ⟨hq, hf⟩
      obtain ⟨h0, hs⟩ := (h.flowsTo_iff hg hm hq).1 hf
      rcases h.kinds q hq with ⟨-, e⟩ | ⟨-, e⟩ | ⟨k, d, hk, -, e, -⟩
      · omega
      · omega
      · rw [e] at hs
        obtain ⟨o, ho, e1, e2⟩ := inflow_exists hg hc hq hk hs
        have hd : dir (around c o) = k := by rw [(h.at_cell _ (by rw [e1]; exact hq)).2, e1, e]
        exact ⟨o, ⟨ho, ⟨by omega, by rw [hd]; exact e2⟩⟩, e1⟩
    · rintro ⟨o, ⟨ho, hi⟩, rfl⟩
      exact h.inflow_flows hg hm hc ho hi
  rw [hset, List.sum_toFinset _ hnd, List.map_map]
  rfl

/-! ### The passes -/

/-- `travel` as far as it matters. -/
structure TravelOk (g : Grid) (m : Missing K) (tocell travel : Place → Int) : Prop where
  ocean : ∀ c, IsCell g c → tocell c = m.tocell → travel c < 0
  land : ∀ c n o, DrainsTo g m.tocell tocell c n o → travel c = n

theorem NetOk.travel_flow (h : NetOk g m landfrac a tocell dir) (hg : MeshOk g) (hm : m.tocell < 0)
    {travel : Place → Int} (ht : TravelOk g m tocell travel) {q c : Place} (hq : IsCell g q) (hf : FlowsTo g tocell q c)
    (hc : 0 ≤ travel c) : travel q = travel c + 1 := by
  have hcc := (h.flows_up hg hm hq hf).1
  have hl : tocell c ≠ m.tocell := fun e => by have := ht.ocean c hcc e; omega
  obtain ⟨n, o, hr⟩ := h.drains_exists hg hm hcc hl
  rw [ht.land c n o hr, ht.land q (n + 1) o (.step hq hf hl hr)]
  push_cast
  rfl

theorem gather_eq (subA : Place → K) (c : Place) (b : K) :
    offsets.foldl (gatherStep g dir subA c) b =
      b + ((offsets.filter (Inflow g dir c)).map fun o => subA (around c o)).sum := by
  rw [← foldl_addIf]
  congr 1
  funext acc o
  unfold gatherStep Inflow
  simp only
  by_cases h1 : dir (around c o) ≥ 0
  · by_cases h2 : dest (around c o) (rotated g (around c o) (dir (around c o))) = c
    · simp [h1, h2]
    · simp [h1, h2]
  · simp [h1]

theorem acc_fold (h : NetOk g m landfrac a tocell dir) (hg : MeshOk g) (hm : m.tocell < 0) {travel : Place → Int}
    (ht : TravelOk g m tocell travel) (w : Place → K) (k : Nat) (s0 : Place → K) (l : List Place) (hl : l.Nodup)
    (hc : ∀ c ∈ l, IsCell g c) (p : Place) :
    l.foldl (accStep g dir travel w k) s0 p =
      if p ∈ l ∧ travel p = k then w p + ((offsets.filter (Inflow g dir p)).map fun o => s0 (around p o)).sum
      else s0 p := by
  induction l using List.reverseRecOn generalizing p with
  | nil => simp
  | append_singleton l x ih =>
    rw [List.nodup_append] at hl
    obtain ⟨hl1, -, hl2⟩ := hl
    have hx : x ∉ l := fun h => hl2 x h x (by simp) rfl
    have ih := ih hl1 (fun c h => hc c (List.mem_append_left _ h))
    rw [List.foldl_append, List.foldl_cons, List.foldl_nil]
    generalize l.foldl (accStep g dir travel w k) s0 = s at ih
    unfold accStep
    by_cases hk : travel x = k
    · rw [if_pos hk]
      by_cases hp : p = x
      · subst hp
        simp only [setAt, if_true]
        rw [if_pos ⟨by simp, hk⟩, gather_eq]
        congr 2
        apply List.map_congr_left
        intro o ho
        obtain ⟨ho, hi⟩ := List.mem_filter.1 ho
        have hi : Inflow g dir p o := by simpa using hi
        obtain ⟨hs, hf⟩ := h.inflow_flows hg hm (hc p (by simp)) ho hi
        have htq := h.travel_flow hg hm ht hs hf (by omega)
        rw [ih, if_neg]
        rintro ⟨hmem, htr⟩
        have hcell : IsCell g (around p o) := hc _ (List.mem_append_left _ hmem)
        rw [src_cell hg hcell] at htq
        omega
      · simp only [setAt, if_neg hp]
        rw [ih]
        simp [hp]
    · rw [if_neg hk, ih]
      by_cases hp : p = x
      · subst hp; simp [hk]
      · simp [hp]

theorem acc_inv (h : NetOk g m landfrac a tocell dir) (hg : MeshOk g) (hm : m.tocell < 0) {travel : Place → Int}
    (ht : TravelOk g m tocell travel) (w : Place → K) (k : Nat) (s0 : Place → K)
    (hs : ∀ p, IsCell g (src g p) → ((k : Int) ≤ travel (src g p) → s0 p = drained g tocell w (src g p)) ∧
      (travel (src g p) < k → s0 p = m.subA)) :
    ∀ c, IsCell g c → (0 ≤ travel c → accLoop g dir travel w k s0 c = drained g tocell w c) ∧
      (travel c < 0 → accLoop g dir travel w k s0 c = m.subA) := by
  induction k generalizing s0 with
  | zero =>
    intro c hc
    have := hs c (by rw [src_cell hg hc]; exact hc)
    rw [src_cell hg hc] at this
    exact this
  | succ k ih =>
    unfold accLoop
    apply ih
    intro p hp
    rw [updateHalo_eq, acc_fold h hg hm ht w k s0 (cells g) (nodup_cells g) (fun c hc => mem_cells.1 hc)]
    have hsc := hs (src g p) (by rw [src_cell hg hp]; exact hp)
    rw [src_cell hg hp] at hsc
    by_cases hk : travel (src g p) = k
    · rw [if_pos ⟨mem_cells.2 hp, hk⟩]
      refine ⟨fun _ => ?_, fun h => by omega⟩
      rw [h.drained_eq hg hm w hp, ← h.inflow_perm hg hm (drained g tocell w) hp]
      congr 2
      apply List.map_congr_left
      intro o ho
      obtain ⟨ho, hi⟩ := List.mem_filter.1 ho
      have hi : Inflow g dir (src g p) o := by simpa using hi
      obtain ⟨hq, hf⟩ := h.inflow_flows hg hm hp ho hi
      have htq := h.travel_flow hg hm ht hq hf (by omega)
      exact (hs _ hq).1 (by push_cast; omega)
    · rw [if_neg (fun h => hk h.2)]
      exact ⟨fun h => hsc.1 (by push_cast; omega), fun h => hsc.2 (by push_cast; omega)⟩

theorem le_maxOver (f : Place → Int) {c : Place} (hc : IsCell g c) : f c ≤ maxOver g f := by
  unfold maxOver
  have : ∀ (l : List Place) (b : Int), b ≤ l.foldl (fun b c => max b (f c)) b ∧
      ∀ c ∈ l, f c ≤ l.foldl (fun b c => max b (f c)) b := by
    intro l
    induction l with
    | nil => simp
    | cons x l ih =>
      intro b
      rw [List.foldl_cons]
      obtain ⟨h1, h2⟩ := ih (max b (f x))
      refine ⟨(le_max_left _ _).trans h1, fun c hc => ?_⟩
      rcases List.mem_cons.1 hc with rfl | hc
      · exact (le_max_right _ _).trans h1
      · exact h2 c hc
  exact (this (cells g) (-1)).2 c (mem_cells.2 hc)

theorem maxOver_eq (f : Place → Int) : maxOver g f = -1 ∨ ∃ c, IsCell g c ∧ maxOver g f = f c := by
  unfold maxOver
  have : ∀ (l : List Place) (b : Int), l.foldl (fun b c => max b (f c)) b = b ∨
      ∃ c ∈ l, l.foldl (fun b c => max b (f c)) b = f c := by
    intro l
    induction l with
    | nil => simp
    | cons x l ih =>
      intro b
      rw [List.foldl_cons]
      rcases ih (max b (f x)) with h | ⟨c, hc, h⟩
      · rw [h]
        rcases max_choice b (f x) with e | e
        · rw [e]; exact .inl rfl
        · rw [e]; exact .inr ⟨x, by simp, rfl⟩
      · exact .inr ⟨c, List.mem_cons_of_mem _ hc, h⟩
  rcases this (cells g) (-1) with h | ⟨c, hc, h⟩
  · exact .inl h
  · exact .inr ⟨c, mem_cells.1 hc, h⟩

/-- The result of the passes. -/
theorem accLoop_ok (h : NetOk g m landfrac a tocell dir) (hg : MeshOk g) (hm : m.tocell < 0) {travel : Place → Int}
    (ht : TravelOk g m tocell travel) (w : Place → K) {c : Place} (hc : IsCell g c) :
    let subA := accLoop g dir travel w (maxOver g travel + 1).toNat fun _ => m.subA
    (0 ≤ travel c → subA c = drained g tocell w c) ∧ (travel c < 0 → subA c = m.subA) := by
  simp only
  apply acc_inv h hg hm ht w _ _ _ c hc
  intro p hp
  have := le_maxOver travel hp
  exact ⟨fun h => by omega, fun _ => rfl⟩

end net
end Verif.River
