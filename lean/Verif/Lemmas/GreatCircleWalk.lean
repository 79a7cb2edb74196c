import Verif.Lemmas.GreatCircleHits
import Mathlib.Data.List.Perm.Subperm
/-
Helper lemmas for the clipping of cells with sides on great circles: the walk along the two lists.
-/
namespace Verif.GcClip
open Verif.Spec

variable {P K : Type} [DecidableEq P] [LinearOrder K] [Zero K] [One K]

/-! ### Intersections are in both lists -/

omit [DecidableEq P] [One K] in
theorem placed_kind {n : Nat} {p : Nat → P} {recs : List (OnSide P K)} {l : List (Nd P K)} (hp : Placed n p recs l) {m : Nd P K}
    (hm : m ∈ l) (hk : m.kind ≠ 0) : m.pt ∈ recs.map (·.1) := by
  obtain ⟨runs, h1, h2⟩ := hp.lists
  have hv : view m ∈ (List.range n).flatMap (fun i => .inl (p i, atVertex recs i) :: (runs i).map .inr) := h1 ▸ List.mem_map_of_mem hm
  obtain ⟨i, hi, hv⟩ := List.mem_flatMap.mp hv
  have hi := List.mem_range.mp hi
  rcases List.mem_cons.mp hv with hv | hv
  · obtain ⟨a, b, c⟩ := view_inl.mp hv
    have hle := hp.kinds m hm
    have h2 : m.kind = 2 := by omega
    rw [h2] at c
    have c : atVertex recs i = true := by simpa using c.symm
    unfold atVertex at c
    obtain ⟨r, hr, hd⟩ := List.any_eq_true.mp c
    simp only [decide_eq_true_eq] at hd
    rw [b, ← hd.1, hp.moved r hr hd.2]
    exact List.mem_map_of_mem hr
  · obtain ⟨y, hy, he⟩ := List.mem_map.mp hv
    obtain ⟨a, b, c⟩ := view_inr.mp he.symm
    have := (mem_onRun.mp ((h2 i hi).2.mem_iff.mp hy)).1
    rw [b]
    exact List.mem_map.mpr ⟨_, this, rfl⟩

omit [DecidableEq P] [One K] in
theorem placed_mem {n : Nat} {p : Nat → P} {recs : List (OnSide P K)} {l : List (Nd P K)} (hp : Placed n p recs l) {x : P}
    (hx : x ∈ recs.map (·.1)) : ∃ m ∈ l, m.kind ≠ 0 ∧ m.pt = x := by
  obtain ⟨runs, h1, h2⟩ := hp.lists
  obtain ⟨r, hr, rfl⟩ := List.mem_map.mp hx
  have hi := hp.sides r hr
  have key : ∀ v, v ∈ (List.range n).flatMap (fun i => Sum.inl (p i, atVertex recs i) :: (runs i).map Sum.inr) → ∃ m ∈ l, view m = v := by
    intro v hv
    rw [← h1] at hv
    exact List.mem_map.mp hv
  by_cases hu : r.2.1 = 0
  · obtain ⟨m, hm, hv⟩ := key (.inl (p r.2.2, atVertex recs r.2.2)) (List.mem_flatMap.mpr ⟨r.2.2, List.mem_range.mpr hi, by simp⟩)
    obtain ⟨a, b, c⟩ := view_inl.mp hv
    have ht : atVertex recs r.2.2 = true := by
      unfold atVertex
      exact List.any_eq_true.mpr ⟨r, hr, by simp [hu]⟩
    rw [ht] at c
    have c : m.kind = 2 := by simpa using c
    exact ⟨m, hm, by omega, by rw [b, hp.moved r hr hu]⟩
  · have hmem : (r.1, r.2.1) ∈ runs r.2.2 := (h2 _ hi).2.mem_iff.mpr (mem_onRun.mpr ⟨hr, hu⟩)
    obtain ⟨m, hm, hv⟩ := key (.inr (r.1, r.2.1)) (List.mem_flatMap.mpr ⟨r.2.2, List.mem_range.mpr hi, by simp [hmem]⟩)
    obtain ⟨a, b, _⟩ := view_inr.mp hv
    exact ⟨m, hm, by omega, b⟩

omit [DecidableEq P] [One K] in
theorem placed_pt {n : Nat} {p : Nat → P} {recs : List (OnSide P K)} {l : List (Nd P K)} (hp : Placed n p recs l) {m : Nd P K}
    (hm : m ∈ l) : m.pt ∈ (List.range n).map p ∨ m.pt ∈ recs.map (·.1) := by
  by_cases hk : m.kind = 0
  · left
    obtain ⟨runs, h1, h2⟩ := hp.lists
    have hv : view m ∈ (List.range n).flatMap (fun i => .inl (p i, atVertex recs i) :: (runs i).map .inr) := h1 ▸ List.mem_map_of_mem hm
    obtain ⟨i, hi, hv⟩ := List.mem_flatMap.mp hv
    rcases List.mem_cons.mp hv with hv | hv
    · rw [(view_inl.mp hv).2.1]
      exact List.mem_map_of_mem hi
    · obtain ⟨y, hy, he⟩ := List.mem_map.mp hv
      have := (view_inr.mp he.symm).1
      omega
  · exact .inr (placed_kind hp hm hk)

/-- What the walk needs of the two lists. -/
structure Joined (st : St P K) : Prop where
  nd1 : (st.g1.map (·.pt)).Nodup
  nd2 : (st.g2.map (·.pt)).Nodup
  to1 : ∀ m ∈ st.g1, m.kind ≠ 0 → m.pt ∈ st.ix.map (·.pt)
  to2 : ∀ m ∈ st.g2, m.kind ≠ 0 → m.pt ∈ st.ix.map (·.pt)
  from1 : ∀ x ∈ st.ix.map (·.pt), ∃ m ∈ st.g1, m.kind ≠ 0 ∧ m.pt = x
  from2 : ∀ x ∈ st.ix.map (·.pt), ∃ m ∈ st.g2, m.kind ≠ 0 ∧ m.pt = x

omit [DecidableEq P] [LinearOrder K] [Zero K] [One K] in
theorem side1_pt (ix : List (Ix P K)) : (side1 ix).map (·.1) = ix.map (·.pt) := by simp [side1]
omit [DecidableEq P] [LinearOrder K] [Zero K] [One K] in
theorem side2_pt (ix : List (Ix P K)) : (side2 ix).map (·.1) = ix.map (·.pt) := by simp [side2]

omit [DecidableEq P] [One K] in
theorem inv_joined {n1 n2 : Nat} {s0 st : St P K} (h : Inv n1 n2 s0 st) (hf1 : Fresh n1 s0.p1 (side1 st.ix))
    (hf2 : Fresh n2 s0.p2 (side2 st.ix)) : Joined st where
  nd1 := placed_nodup h.one hf1 h.cur1
  nd2 := placed_nodup h.two hf2 h.cur2
  to1 := fun m hm hk => side1_pt st.ix ▸ placed_kind h.one hm hk
  to2 := fun m hm hk => side2_pt st.ix ▸ placed_kind h.two hm hk
  from1 := fun x hx => placed_mem h.one (by rw [side1_pt]; exact hx)
  from2 := fun x hx => placed_mem h.two (by rw [side2_pt]; exact hx)

/-! ### The polygon -/

/-- The polygon so far: its points satisfy `Q` and are different; `base` nodes were in use before. -/
structure PolyInv (same : P → P → Bool) (Q : P → Prop) (base : Nat) (poly : List P × Nat) : Prop where
  ne : poly.1 ≠ []
  used : poly.2 + 1 = base + poly.1.length
  pts : ∀ p ∈ poly.1, Q p
  diff : poly.1.Pairwise fun a b => same a b = false

omit [DecidableEq P] in
theorem addPt_spec {same : P → P → Bool} {Q : P → Prop} {base cap : Nat} {poly : List P × Nat} (h : PolyInv same Q base poly) {p : P}
    (hp : Q p) :
    (∀ e, addPt same cap poly p = .error e → e = .full ∧ cap < poly.2 + 1 ∧ ∀ q ∈ poly.1, same q p = false) ∧
    (∀ poly', addPt same cap poly p = .ok poly' → PolyInv same Q base poly') := by
  unfold addPt
  have hne : poly.1.isEmpty = false := by
    cases hh : poly.1 with
    | nil => exact absurd hh h.ne
    | cons a l => rfl
  rw [hne]
  simp only [Bool.false_eq_true, if_false]
  by_cases hs : (poly.1.any fun q => same q p) = true
  · rw [if_pos hs]
    refine ⟨fun _ h => (by cases h), ?_⟩
    intro poly' h'
    injection h' with h'
    exact h' ▸ h
  · rw [if_neg hs]
    have hs' : ∀ q ∈ poly.1, same q p = false := by
      intro q hq
      by_contra hc
      exact hs (List.any_eq_true.mpr ⟨q, hq, by simpa using hc⟩)
    unfold alloc
    by_cases hc : poly.2 + 1 > cap
    · rw [if_pos hc]
      refine ⟨?_, fun _ h => (by cases h)⟩
      intro e he
      injection he with he
      exact ⟨he.symm, hc, hs'⟩
    · rw [if_neg hc]
      refine ⟨fun _ h => (by cases h), ?_⟩
      intro poly' h'
      injection h' with h'
      subst h'
      refine ⟨by simp, ?_, ?_, ?_⟩
      · have := h.used
        simp only [List.length_append, List.length_singleton]
        omega
      · intro q hq
        rcases List.mem_append.mp hq with hq | hq
        · exact h.pts q hq
        · rw [List.mem_singleton.mp hq]; exact hp
      · rw [List.pairwise_append]
        exact ⟨h.diff, by simp, fun a ha b hb => by rw [List.mem_singleton.mp hb]; exact hs' a ha⟩

/-- A pool that is used up, with more different points than there are. -/
def Over (same : P → P → Bool) (Q : P → Prop) (base cap : Nat) : Prop :=
  ∃ (poly : List P × Nat) (p : P), PolyInv same Q base poly ∧ Q p ∧ cap < poly.2 + 1 ∧ ∀ q ∈ poly.1, same q p = false

omit [DecidableEq P] [LinearOrder K] [Zero K] [One K] in
theorem after_some {l : List (Nd P K)} (h : 0 < l.length) (k : Nat) : ∃ b, after l k = some b := by
  unfold after
  exact ⟨_, List.getElem?_eq_getElem (Nat.mod_lt _ h)⟩

theorem inner_spec {same : P → P → Bool} {Q : P → Prop} {base cap : Nat} {l : List (Nd P K)} {W : Nd P K → Prop}
    (hQ : ∀ m ∈ l, W m → Q m.pt)
    (hstep : ∀ k a b, l[k]? = some a → after l k = some b → W a → a.kind = 0 → W b)
    (hkeep : ∀ b ∈ l, Within b → W b) (first : P) :
    ∀ (f k : Nat) (w : Walk P), (∃ m, l[k]? = some m ∧ W m) → PolyInv same Q base w.poly →
      (∀ e, inner same cap l first f k w = .error e → e = .noNext ∨ (e = .full ∧ Over same Q base cap)) ∧
      (∀ w', inner same cap l first f k w = .ok (.home, w') → PolyInv same Q base w'.poly) ∧
      (∀ p w', inner same cap l first f k w = .ok (.switch p, w') → PolyInv same Q base w'.poly ∧
        ∃ k' m b, l[k']? = some m ∧ m.kind ≠ 0 ∧ m.pt = p ∧ W m ∧ after l k' = some b ∧ ¬ Within b) := by
  intro f
  induction f with
  | zero =>
    intro k w _ _
    refine ⟨?_, fun _ h => (by cases h), fun _ _ h => (by cases h)⟩
    intro e h
    injection h with h
    exact .inl h.symm
  | succ f ih =>
    intro k w hk hw
    obtain ⟨m, hm, hWm⟩ := hk
    have hmem : m ∈ l := List.mem_of_getElem? hm
    have hlen : 0 < l.length := List.length_pos_of_mem hmem
    obtain ⟨b, hb⟩ := after_some hlen k
    have hbm : b ∈ l := List.mem_of_getElem? hb
    have hcont : ∀ (w2 : Walk P), W b → PolyInv same Q base w2.poly → _ := fun w2 hWb hw2 => ih ((k + 1) % l.length) w2 ⟨b, hb, hWb⟩ hw2
    obtain ⟨q1, q2⟩ := addPt_spec (cap := cap) hw (hQ m hmem hWm)
    have hrun : ∀ d : Int, W b →
        (∀ e, (addPt same cap w.poly m.pt >>= fun poly => inner same cap l first f ((k + 1) % l.length) ⟨poly, d⟩) = .error e →
          e = .noNext ∨ (e = .full ∧ Over same Q base cap)) ∧
        (∀ w', (addPt same cap w.poly m.pt >>= fun poly => inner same cap l first f ((k + 1) % l.length) ⟨poly, d⟩) = .ok (.home, w') →
          PolyInv same Q base w'.poly) ∧
        (∀ p w', (addPt same cap w.poly m.pt >>= fun poly => inner same cap l first f ((k + 1) % l.length) ⟨poly, d⟩) = .ok (.switch p, w') →
          PolyInv same Q base w'.poly ∧
          ∃ k' m b, l[k']? = some m ∧ m.kind ≠ 0 ∧ m.pt = p ∧ W m ∧ after l k' = some b ∧ ¬ Within b) := by
      intro d hWb
      cases ha : addPt same cap w.poly m.pt with
      | error x =>
        refine ⟨?_, fun _ h => (by cases h), fun _ _ h => (by cases h)⟩
        intro e h
        injection h with h
        subst h
        obtain ⟨r1, r2, r3⟩ := q1 _ ha
        exact .inr ⟨r1, w.poly, m.pt, hw, hQ m hmem hWm, r2, r3⟩
      | ok poly => exact hcont ⟨poly, d⟩ hWb (q2 _ ha)
    unfold inner
    rw [hm, hb]
    dsimp only
    by_cases hk0 : m.kind = 0
    · rw [if_neg (by simp [hk0])]
      exact hrun _ (hstep k m b hm hb hWm hk0)
    · rw [if_pos hk0]
      by_cases hfst : m.pt = first
      · rw [if_pos hfst]
        refine ⟨fun _ h => (by cases h), ?_, fun _ _ h => (by cases h)⟩
        intro w' h
        injection h with h
        injection h with _ h
        exact h ▸ hw
      · rw [if_neg hfst]
        by_cases hin : b.kind ≠ 0 ∨ b.inside = 1
        · rw [if_pos hin]
          exact hrun _ (hkeep b hbm hin)
        · rw [if_neg hin]
          refine ⟨fun _ h => (by cases h), fun _ h => (by cases h), ?_⟩
          intro p w' h
          injection h with h
          injection h with h1 h2
          injection h1 with h1
          subst h1 h2
          exact ⟨hw, k, m, b, hm, hk0, rfl, hWm, hb, hin⟩

theorem getElem_unique {α β : Type} (f : α → β) {l : List α} (h : (l.map f).Nodup) {i j : Nat} {a b : α} (hi : l[i]? = some a)
    (hj : l[j]? = some b) (he : f a = f b) : i = j := by
  have h1 : (l.map f)[i]? = some (f a) := by rw [List.getElem?_map, hi]; rfl
  have h2 : (l.map f)[j]? = some (f a) := by rw [List.getElem?_map, hj, he]; rfl
  have hlt : i < (l.map f).length := (List.getElem?_eq_some_iff.mp h1).1
  exact (List.getElem?_inj hlt h).mp (h1.trans h2.symm)

theorem outer_spec {same : P → P → Bool} {Q : P → Prop} {base cap : Nat} {st : St P K} (hj : Joined st) {W : Nd P K → Prop}
    (hQ : ∀ l, l = st.g1 ∨ l = st.g2 → ∀ m ∈ l, W m → Q m.pt)
    (hstep : ∀ l, l = st.g1 ∨ l = st.g2 → ∀ k a b, l[k]? = some a → after l k = some b → W a → a.kind = 0 → W b)
    (hkeep : ∀ b, Within b → W b)
    (hswitch : ∀ k1 k2 a b a' b', st.g1[k1]? = some a → st.g2[k2]? = some b → a.pt = b.pt → a.kind ≠ 0 → b.kind ≠ 0 →
      after st.g1 k1 = some a' → after st.g2 k2 = some b' → (¬ Within a' → W b') ∧ (¬ Within b' → W a')) (first : P) :
    ∀ (f : Nat) (a b : List (Nd P K)) (cur : P) (w : Walk P), (a = st.g1 ∧ b = st.g2 ∨ a = st.g2 ∧ b = st.g1) →
      (∃ k m n, a[k]? = some m ∧ m.pt = cur ∧ after a k = some n ∧ W n) → PolyInv same Q base w.poly →
      (∀ e, outer same cap first f a b cur w = .error e → e = .noNext ∨ e = .noReturn ∨ (e = .full ∧ Over same Q base cap)) ∧
      (∀ w', outer same cap first f a b cur w = .ok w' → PolyInv same Q base w'.poly) := by
  intro f
  induction f with
  | zero =>
    intro a b cur w _ _ _
    refine ⟨?_, fun _ h => (by cases h)⟩
    intro e h
    injection h with h
    exact .inr (.inl h.symm)
  | succ f ih =>
    intro a b cur w hab hcur hw
    obtain ⟨k, m, n, hm, hmp, hn, hWn⟩ := hcur
    have ha : a = st.g1 ∨ a = st.g2 := by rcases hab with h | h <;> simp [h]
    have hnd : (a.map (·.pt)).Nodup := by
      rcases ha with rfl | rfl
      · exact hj.nd1
      · exact hj.nd2
    obtain ⟨k', m', hk', hm', hmp'⟩ := findPt_some (l := a) (p := cur) ⟨m, List.mem_of_getElem? hm, hmp⟩
    have hkk : k' = k := getElem_unique (fun x : Nd P K => x.pt) hnd hm' hm (hmp'.trans hmp.symm)
    subst hkk
    obtain ⟨i1, i2, i3⟩ := inner_spec (cap := cap) (hQ a ha) (hstep a ha) (fun b _ hb => hkeep b hb) first a.length
      ((k' + 1) % a.length) w ⟨n, hn, hWn⟩ hw
    unfold outer
    rw [hk']
    dsimp only
    cases hin : inner same cap a first a.length ((k' + 1) % a.length) w with
    | error x =>
      refine ⟨?_, fun _ h => (by cases h)⟩
      intro e h
      injection h with h
      subst h
      rcases i1 _ hin with h | h
      · exact .inl h
      · exact .inr (.inr h)
    | ok r =>
      obtain ⟨ex, w1⟩ := r
      cases ex with
      | home =>
        refine ⟨fun _ h => (by cases h), ?_⟩
        intro w' h
        injection h with h
        exact h ▸ i2 _ hin
      | switch p =>
        obtain ⟨hw1, k3, m3, b3, h1, h2, h3, h4, h5, h6⟩ := i3 _ _ hin
        simp only [bind, Except.bind]
        by_cases hpf : p = first
        · rw [if_pos hpf]
          refine ⟨fun _ h => (by cases h), ?_⟩
          intro w' h
          injection h with h
          exact h ▸ hw1
        · rw [if_neg hpf]
          have hQp : Q p := h3 ▸ hQ a ha m3 (List.mem_of_getElem? h1) h4
          obtain ⟨q1, q2⟩ := addPt_spec (cap := cap) hw1 hQp
          have hnext : ∃ k m n, b[k]? = some m ∧ m.pt = p ∧ after b k = some n ∧ W n := by
            rcases hab with ⟨rfl, rfl⟩ | ⟨rfl, rfl⟩
            · obtain ⟨y, hy, hyk, hyp⟩ := hj.from2 p (h3 ▸ hj.to1 m3 (List.mem_of_getElem? h1) h2)
              obtain ⟨k4, hk4, he⟩ := List.getElem_of_mem hy
              have hk4' : st.g2[k4]? = some y := by rw [List.getElem?_eq_getElem hk4, he]
              obtain ⟨n4, hn4⟩ := after_some (l := st.g2) (by omega) k4
              exact ⟨k4, y, n4, hk4', hyp, hn4, (hswitch k3 k4 m3 y b3 n4 h1 hk4' (h3.trans hyp.symm) h2 hyk h5 hn4).1 h6⟩
            · obtain ⟨y, hy, hyk, hyp⟩ := hj.from1 p (h3 ▸ hj.to2 m3 (List.mem_of_getElem? h1) h2)
              obtain ⟨k4, hk4, he⟩ := List.getElem_of_mem hy
              have hk4' : st.g1[k4]? = some y := by rw [List.getElem?_eq_getElem hk4, he]
              obtain ⟨n4, hn4⟩ := after_some (l := st.g1) (by omega) k4
              exact ⟨k4, y, n4, hk4', hyp, hn4, (hswitch k4 k3 y m3 n4 b3 hk4' h1 (hyp.trans h3.symm) hyk h2 hn4 h5).2 h6⟩
          cases had : addPt same cap w1.poly p with
          | error x =>
            refine ⟨?_, fun _ h => (by cases h)⟩
            intro e h
            injection h with h
            subst h
            obtain ⟨r1, r2, r3⟩ := q1 _ had
            exact .inr (.inr ⟨r1, w1.poly, p, hw1, hQp, r2, r3⟩)
          | ok poly =>
            exact ih b a p ⟨poly, w1.left - 1⟩ (by rcases hab with h | h <;> simp [h]) hnext (q2 _ had)

/-! ### The start -/

theorem setInbound_spec {st : St P K} (hj : Joined st) : ∀ ix : List (Ix P K), (∀ e ∈ ix, e.pt ∈ st.ix.map (·.pt)) →
    ∃ ix', setInbound ix st.g1 = .ok ix' ∧ ∀ e' ∈ ix', e'.pt ∈ st.ix.map (·.pt) ∧
      (e' ∈ ix ∨ ∃ k m b, st.g1[k]? = some m ∧ m.pt = e'.pt ∧ after st.g1 k = some b ∧ (e'.inbound = 2 → b.inside = 1)) := by
  intro ix
  induction ix with
  | nil => intro _; exact ⟨[], rfl, by simp⟩
  | cons e ix ih =>
    intro h
    obtain ⟨ix', h1, h2⟩ := ih fun x hx => h x (by simp [hx])
    have he := h e (by simp)
    unfold setInbound at h1 ⊢
    rw [List.mapM_cons]
    have rest : ∀ e1 : Ix P K, (e1.pt ∈ st.ix.map (·.pt) ∧ (e1 ∈ e :: ix ∨
        ∃ k m b, st.g1[k]? = some m ∧ m.pt = e1.pt ∧ after st.g1 k = some b ∧ (e1.inbound = 2 → b.inside = 1))) →
        ∀ e' ∈ e1 :: ix', e'.pt ∈ st.ix.map (·.pt) ∧ (e' ∈ e :: ix ∨
          ∃ k m b, st.g1[k]? = some m ∧ m.pt = e'.pt ∧ after st.g1 k = some b ∧ (e'.inbound = 2 → b.inside = 1)) := by
      intro e1 h' e' he'
      rcases List.mem_cons.mp he' with rfl | he'
      · exact h'
      · obtain ⟨a, b⟩ := h2 e' he'
        refine ⟨a, ?_⟩
        rcases b with b | b
        · exact .inl (List.mem_cons_of_mem _ b)
        · exact .inr b
    by_cases hb : e.inbound = 0
    · obtain ⟨m0, hm0, _, hp0⟩ := hj.from1 e.pt he
      obtain ⟨k, m, hk, hm, hp⟩ := findPt_some (l := st.g1) (p := e.pt) ⟨m0, hm0, hp0⟩
      have hlen : 0 < st.g1.length := List.length_pos_of_mem hm0
      obtain ⟨b, hbb⟩ := after_some hlen k
      have hbf : ∃ a, before st.g1 k = some a := ⟨_, List.getElem?_eq_getElem (Nat.mod_lt _ hlen)⟩
      obtain ⟨a, haa⟩ := hbf
      rw [if_neg (by simp [hb]), hk]
      simp only [haa, hbb]
      refine ⟨{ e with inbound := if a.inside = 0 ∧ b.inside = 1 then 2 else 1 } :: ix', ?_, ?_⟩
      · show (Except.ok _ >>= fun x => _ >>= fun y => Except.ok (x :: y)) = _
        rw [h1]
        rfl
      · apply rest
        refine ⟨he, .inr ⟨k, m, b, hm, hp, hbb, ?_⟩⟩
        intro h2
        by_cases hab : a.inside = 0 ∧ b.inside = 1
        · exact hab.2
        · rw [if_neg hab] at h2
          exact absurd (show (1 : Nat) = 2 from h2) (by decide)
    · rw [if_pos hb]
      refine ⟨e :: ix', ?_, ?_⟩
      · show (Except.ok _ >>= fun x => _ >>= fun y => Except.ok (x :: y)) = _
        rw [h1]
        rfl
      · exact rest e ⟨he, .inl (by simp)⟩

theorem startOf_spec {st : St P K} (hj : Joined st) : ∃ o, startOf st.ix st.g1 = .ok o ∧
    ∀ e, o = some e → ∃ k m b, st.g1[k]? = some m ∧ m.kind ≠ 0 ∧ m.pt = e.pt ∧ after st.g1 k = some b ∧
      (Consistent st → Within b) := by
  have found : ∀ e : Ix P K, e.pt ∈ st.ix.map (·.pt) → (Consistent st → ∀ k m b, st.g1[k]? = some m → m.pt = e.pt →
      after st.g1 k = some b → Within b) → ∃ k m b, st.g1[k]? = some m ∧ m.kind ≠ 0 ∧ m.pt = e.pt ∧ after st.g1 k = some b ∧
      (Consistent st → Within b) := by
    intro e he hw
    obtain ⟨m, hm, hk, hp⟩ := hj.from1 e.pt he
    obtain ⟨k, hlt, hkm⟩ := List.getElem_of_mem hm
    have h1 : st.g1[k]? = some m := by rw [List.getElem?_eq_getElem hlt, hkm]
    obtain ⟨b, hb⟩ := after_some (l := st.g1) (by omega) k
    exact ⟨k, m, b, h1, hk, hp, hb, fun hc => hw hc k m b h1 hp hb⟩
  unfold startOf
  by_cases hl : st.ix.length > 1
  · rw [if_pos hl]
    cases hf : firstInbound st.ix with
    | some e =>
      refine ⟨some e, rfl, ?_⟩
      intro e' he'
      injection he' with he'
      subst he'
      have hmem : e ∈ st.ix := List.mem_of_find?_eq_some hf
      have h2 : e.inbound = 2 := by simpa using List.find?_some hf
      exact found e (List.mem_map_of_mem hmem) (fun hc k m b h1 h3 h4 => hc.start e hmem h2 k m b h1 h3 h4)
    | none =>
      obtain ⟨ix', h1, h2⟩ := setInbound_spec hj st.ix (fun e he => List.mem_map_of_mem he)
      refine ⟨firstInbound ix', ?_, ?_⟩
      · dsimp only
        rw [h1]
        rfl
      · intro e he
        have hmem : e ∈ ix' := List.mem_of_find?_eq_some he
        have hin : e.inbound = 2 := by simpa using List.find?_some he
        obtain ⟨h3, h4⟩ := h2 e hmem
        refine found e h3 ?_
        intro hc k m b hk hp hb
        rcases h4 with h4 | ⟨k', m', b', hk', hp', hb', hi'⟩
        · exact hc.start e h4 hin k m b hk hp hb
        · have : k' = k := getElem_unique (fun x : Nd P K => x.pt) hj.nd1 hk' hk (hp'.trans hp.symm)
          subst this
          rw [hb] at hb'
          injection hb' with hb'
          subst hb'
          exact .inr (hi' hin)
  · rw [if_neg hl]
    exact ⟨none, rfl, fun e he => by cases he⟩

/-- The walk, for a predicate that all visited nodes satisfy. -/
theorem walk_spec {same : P → P → Bool} {Q : P → Prop} {cap : Nat} {st : St P K} (hj : Joined st) {W : Nd P K → Prop}
    (hQ : ∀ l, l = st.g1 ∨ l = st.g2 → ∀ m ∈ l, W m → Q m.pt)
    (hstep : ∀ l, l = st.g1 ∨ l = st.g2 → ∀ k a b, l[k]? = some a → after l k = some b → W a → a.kind = 0 → W b)
    (hkeep : ∀ b, Within b → W b)
    (hswitch : ∀ k1 k2 a b a' b', st.g1[k1]? = some a → st.g2[k2]? = some b → a.pt = b.pt → a.kind ≠ 0 → b.kind ≠ 0 →
      after st.g1 k1 = some a' → after st.g2 k2 = some b' → (¬ Within a' → W b') ∧ (¬ Within b' → W a'))
    (hstart : (∀ b, W b) ∨ Consistent st) :
    (∀ e, walk same cap st = .error e → e = .noNext ∨ e = .noReturn ∨ e = .left ∨ (e = .full ∧ Over same Q st.used cap)) ∧
    (∀ poly, walk same cap st = .ok poly → (∀ p ∈ poly, Q p) ∧ poly.Pairwise (fun a b => same a b = false) ∧
      (poly = [] ∨ 3 ≤ poly.length)) := by
  obtain ⟨o, ho, hs⟩ := startOf_spec hj
  unfold walk
  rw [ho]
  simp only [bind, Except.bind]
  cases o with
  | none =>
    refine ⟨fun _ h => (by cases h), ?_⟩
    intro poly h
    injection h with h
    subst h
    exact ⟨by simp, by simp, .inl rfl⟩
  | some e =>
    obtain ⟨k, m, b, hk, hkind, hp, hb, hw⟩ := hs e rfl
    obtain ⟨k', _, hk', _, _⟩ := findPt_some (l := st.g1) (p := e.pt) ⟨m, List.mem_of_getElem? hk, hp⟩
    have hWb : W b := by
      rcases hstart with h | h
      · exact h b
      · exact hkeep b (hw h)
    have hQe : Q e.pt := hp ▸ hQ st.g1 (.inl rfl) m (List.mem_of_getElem? hk) (hkeep m (.inl hkind))
    dsimp only
    rw [hk']
    dsimp only
    rw [show addPt same cap ([], st.used) e.pt = .ok ([e.pt], st.used) from rfl]
    dsimp only
    have hpi : PolyInv same Q st.used ([e.pt], st.used) :=
      ⟨by simp, by simp, fun p hp => by rw [List.mem_singleton.mp hp]; exact hQe, by simp⟩
    obtain ⟨o1, o2⟩ := outer_spec (cap := cap) hj hQ hstep hkeep hswitch e.pt st.ix.length st.g1 st.g2 e.pt
      ⟨([e.pt], st.used), (st.ix.length : Int) - 1⟩ (.inl ⟨rfl, rfl⟩) ⟨k, m, b, hk, hp, hb, hWb⟩ hpi
    cases hout : outer same cap e.pt st.ix.length st.g1 st.g2 e.pt ⟨([e.pt], st.used), (st.ix.length : Int) - 1⟩ with
    | error x =>
      refine ⟨?_, fun _ h => (by cases h)⟩
      intro e' h
      injection h with h
      subst h
      rcases o1 _ hout with h | h | h
      · exact .inl h
      · exact .inr (.inl h)
      · exact .inr (.inr (.inr h))
    | ok w =>
      have hw := o2 w hout
      dsimp only
      by_cases hleft : w.left > 0
      · rw [if_pos hleft]
        refine ⟨?_, fun _ h => (by cases h)⟩
        intro e' h
        injection h with h
        exact .inr (.inr (.inl h.symm))
      · rw [if_neg hleft]
        by_cases h3 : w.poly.1.length < 3
        · rw [if_pos h3]
          refine ⟨fun _ h => (by cases h), ?_⟩
          intro poly h
          injection h with h
          subst h
          exact ⟨by simp, by simp, .inl rfl⟩
        · rw [if_neg h3]
          refine ⟨fun _ h => (by cases h), ?_⟩
          intro poly h
          injection h with h
          subst h
          exact ⟨hw.pts, hw.diff, .inr (by omega)⟩

/-- The pool suffices if there are not more points than nodes left. -/
theorem not_over {same : P → P → Bool} (hsame : ∀ p, same p p = true) {S : List P} {base cap : Nat} (h : base + S.length ≤ cap) :
    ¬ Over same (· ∈ S) base cap := by
  rintro ⟨poly, p, hp, hq, hc, hs⟩
  have hnd : (poly.1 ++ [p]).Nodup := by
    have : (poly.1 ++ [p]).Pairwise fun a b => same a b = false := by
      rw [List.pairwise_append]
      exact ⟨hp.diff, by simp, fun a ha b hb => by rw [List.mem_singleton.mp hb]; exact hs a ha⟩
    refine this.imp ?_
    rintro a b hab rfl
    rw [hsame] at hab
    cases hab
  have hsub : (poly.1 ++ [p]).length ≤ S.length := by
    apply List.Subperm.length_le
    apply List.subperm_of_subset hnd
    intro x hx
    rcases List.mem_append.mp hx with hx | hx
    · exact hp.pts x hx
    · rw [List.mem_singleton.mp hx]; exact hq
  have := hp.used
  simp only [List.length_append, List.length_singleton] at hsub
  omega

end Verif.GcClip
