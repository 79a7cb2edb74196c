import Verif.Props.Hydrog
import Verif.Lemmas.HydrogIter
/-
C103: the iterations of rmv_parallel_rivers.
-/
namespace Verif.Hydrog

open Spec.Hydrog

variable {R : Type} [Field R] [LinearOrder R] [IsStrictOrderedRing R]

/-- What is found from a consistent network: a river flows to a cell inside, and the area grows -/
theorem consistent_next {g : Grid} {w : Pos → R} {s : Net R} (hs : Consistent g w s)
    (hw : ∀ c, g.inside c → s.toc c ≠ mval → 0 < w c) {p : Pos} (hp : g.inside p) (hm : s.toc p ≠ mval) (hz : s.toc p ≠ 0) :
    ∃ e, (e, s.toc p) ∈ dirs ∧ (g.nt = 1 ∨ ¬ Corner g (p.move e)) ∧ s.bas (wrap g (p.move e)) = s.bas p ∧ 0 ≤ s.sub p ∧
      s.sub p < s.sub (wrap g (p.move e)) := by
  obtain ⟨k, o, ho⟩ := hs.drains p hp hm
  obtain ⟨hpath, hoz, hoi⟩ := ho
  cases hpath with
  | here => exact absurd hoz hz
  | @step _ q _ k hn hpath =>
    have hqm : s.toc q ≠ mval := by
      cases hpath with
      | here => rw [hoz]; decide
      | step hn' _ => exact hn'.ne_mval
    have hq : g.inside q := by
      by_contra h
      exact hqm (hs.outside q h)
    obtain ⟨-, e, he, rfl⟩ := id hn
    refine ⟨e, he, hs.edge.imp id fun h => h p e hp he, hs.basin p _ hp hn, ?_, ?_⟩
    · rw [hs.area, if_neg hm]
      exact upstream_nonneg hw
    · rw [hs.area, if_neg hm, hs.area, if_neg hqm]
      exact upstream_lt hn hpath hoz hq hqm hw

theorem consistent_sub {g : Grid} {w : Pos → R} {s : Net R} (hs : Consistent g w s) {q : Pos} (h : 0 ≤ s.sub q) :
    g.inside q ∧ s.toc q ≠ mval := by
  have hm : s.toc q ≠ mval := by
    intro hm
    rw [hs.area, if_pos hm] at h
    norm_num [mval] at h
  refine ⟨?_, hm⟩
  by_contra hq
  exact hm (hs.outside q hq)

/-- The new direction of a river. The cell `q` to which it flows now has a larger area than the river had; it is in the same basin or
next to a coastal outlet; and no other neighbour that is allowed has a larger area, or the same area and a later place in the order of
the directions. Missing cells and outlets are kept. -/
theorem C103_choice {g : Grid} {w : Pos → R} {s : Net R} (hs : Consistent g w s)
    (hw : ∀ c, g.inside c → s.toc c ≠ mval → 0 < w c) {p : Pos} (hp : g.inside p) :
    (s.toc p = mval → redirect g false s p = mval) ∧ (s.toc p = 0 → redirect g false s p = 0) ∧
    (s.toc p ≠ mval → s.toc p ≠ 0 → ∃ l e d l', dirs = l ++ (e, d) :: l' ∧ redirect g false s p = d ∧ d ≠ 0 ∧ d ≠ mval ∧
      (g.nt = 1 ∨ ¬ Corner g (p.move e)) ∧ g.inside (wrap g (p.move e)) ∧ s.toc (wrap g (p.move e)) ≠ mval ∧
      s.sub p < s.sub (wrap g (p.move e)) ∧
      (s.bas (wrap g (p.move e)) = s.bas p ∨
        ∃ f ∈ dirs, s.toc (source g 2 ((p.move e).move f.1)) = 0 ∧ s.lfr (source g 2 ((p.move e).move f.1)) < 1) ∧
      ∀ f ∈ l ++ l', f.1 ≠ (0, 0) → (g.nt = 1 ∨ ¬ Corner g (p.move f.1)) →
        (s.bas (wrap g (p.move f.1)) = s.bas p ∨ s.toc (wrap g (p.move f.1)) = 0 ∧ s.lfr (wrap g (p.move f.1)) < 1) →
        s.sub (wrap g (p.move f.1)) ≤ s.sub (wrap g (p.move e)) ∧
        (f ∈ l' → s.sub (wrap g (p.move f.1)) < s.sub (wrap g (p.move e)))) := by
  have hr : redirect g false s p = choose (createHalo g 2 s.toc) (createHalo g 2 s.lfr) (createHalo g 2 s.sub) (createHalo g 2 s.bas) p := by
    unfold redirect
    simp [hp]
  have ht : createHalo g 2 s.toc p = s.toc p := by
    unfold createHalo
    rw [source_inside hp]
  rw [hr]
  unfold choose
  rw [ht]
  refine ⟨fun h => by rw [if_pos h], fun h => by rw [h, if_neg (by decide), if_pos rfl], fun hm hz => ?_⟩
  rw [if_neg hm, if_neg hz]
  obtain ⟨e0, he0, hc0, hb0, hn0, hl0⟩ := consistent_next hs hw hp hm hz
  have hs0 := source_wrap (h := 2) (by decide) hp (dirs_unit he0) hc0
  have hbas : createHalo g 2 s.bas p = s.bas p := by
    unfold createHalo
    rw [source_inside hp]
  have ha0 : accepts (createHalo g 2 s.toc) (createHalo g 2 s.lfr) (createHalo g 2 s.bas) p (p.move e0) := by
    left
    rw [hbas]
    unfold createHalo
    rw [hs0]
    exact hb0
  have hz0 : e0 ≠ (0, 0) := fun h => hz ((dirs_zero he0).mp h)
  have hsub0 : createHalo g 2 s.sub (p.move e0) = s.sub (wrap g (p.move e0)) := by
    unfold createHalo
    rw [hs0]
  rcases try_fold (createHalo g 2 s.toc) (createHalo g 2 s.lfr) (createHalo g 2 s.sub) (createHalo g 2 s.bas) p dirs ⟨-99999, none⟩ with
    ⟨-, i2⟩ | ⟨l1, ⟨e, d⟩, l2, i1, i2, i3, i4, -, i6, i7⟩
  · have := i2 _ he0 hz0 ha0
    dsimp only at this
    rw [hsub0] at this
    linarith
  rw [i4]
  dsimp only at i2 i3 i6 i7 ⊢
  have hed : (e, d) ∈ dirs := by rw [i1]; simp
  have hle : s.sub (wrap g (p.move e0)) ≤ createHalo g 2 s.sub (p.move e) := by
    rw [← hsub0]
    have h := he0
    rw [i1] at h
    rcases List.mem_append.mp h with h | h
    · exact i6 _ h hz0 ha0
    · rcases List.mem_cons.mp h with h | h
      · cases h
        exact le_refl _
      · exact (i7 _ h hz0 ha0).le
  have hpos : 0 ≤ s.sub (source g 2 (p.move e)) := by
    unfold createHalo at hle
    linarith
  have hins := consistent_sub hs hpos
  have hcor : g.nt = 1 ∨ ¬ Corner g (p.move e) := by
    by_cases h1 : g.nt = 1
    · exact .inl h1
    · right
      intro hc
      have hi := hins.1
      rw [source_corner h1 hc] at hi
      unfold Grid.inside at hi
      unfold Corner at hc
      omega
  have hsw := source_wrap (h := 2) (by decide) hp (dirs_unit hed) hcor
  unfold createHalo at hle i3 i6 i7
  rw [hsw] at hle hins
  unfold accepts coastal at i3
  dsimp only at i3
  rw [source_inside hp] at i3
  have hd0 : d ≠ 0 := fun h => i2 ((dirs_zero hed).mpr h)
  refine ⟨l1, e, d, l2, i1, rfl, hd0, fun h => dirs_mval (h ▸ hed), hcor, hins.1, hins.2, by linarith, ?_, ?_⟩
  · rcases i3 with h | h | h
    · rw [hsw] at h
      exact .inl h
    · refine .inr ⟨((0, 0), 0), by decide, ?_⟩
      have : (p.move e).move (0, 0) = p.move e := by simp [Pos.move]
      rw [this]
      exact h
    · exact .inr h
  · intro f hf hfz hfc hfa
    have hfd : f ∈ dirs := by
      rw [i1]
      rcases List.mem_append.mp hf with h | h
      · exact List.mem_append_left _ h
      · exact List.mem_append_right _ (List.mem_cons_of_mem _ h)
    have hsf := source_wrap (h := 2) (by decide) hp (dirs_unit (e := f.1) (d := f.2) hfd) hfc
    have hacc : accepts (fun p => s.toc (source g 2 p)) (fun p => s.lfr (source g 2 p)) (fun p => s.bas (source g 2 p)) p (p.move f.1) := by
      unfold accepts coastal
      dsimp only
      rw [hsf, source_inside hp]
      exact hfa.imp id .inl
    have h6 := fun h => i6 f h hfz hacc
    have h7 := fun h => i7 f h hfz hacc
    rw [hsf, hsw] at h6 h7
    refine ⟨?_, h7⟩
    rcases List.mem_append.mp hf with h | h
    · exact h6 h
    · exact (h7 h).le

/-- The results of one iteration -/
theorem C103_iteration {g : Grid} (a : Areas R) {s : Net R} (hs : Consistent g (a.weight s.lfr) s)
    (hw : ∀ c, g.inside c → s.toc c ≠ mval → 0 < a.weight s.lfr c) {fuel : Nat} (hf : (cells g).length < fuel) :
    ∃ s', iteration g a false fuel s = some s' ∧ Consistent g (a.weight s.lfr) s' ∧
      (∀ c, g.inside c → s'.lfr c = s.lfr c) ∧
      (∀ c, s'.toc c = redirect g false s c ∨
        s'.toc c = mval ∧ redirect g false s c = 0 ∧ s.lfr c = 0 ∧ ∀ p, g.inside p → ¬ Next g (redirect g false s) p c) ∧
      ∀ c c' k k' o o', g.inside c → g.inside c' → s'.toc c ≠ mval → s'.toc c' ≠ mval → Ends g s'.toc c k o → Ends g s'.toc c' k' o' →
        s'.travel c = k ∧ (s'.bas c = s'.bas c' ↔ o = o') ∧ (s'.bas c < s'.bas c' → s'.sub o' ≤ s'.sub o) := by
  have hT0 : ∀ p, ¬ g.inside p → redirect g false s p = mval := by
    intro p hp
    unfold redirect
    simp only [if_neg hp]
  have hch := fun p (hp : g.inside p) => C103_choice hs hw hp
  generalize hT : redirect g false s = T at hT0 hch ⊢
  have hL : ∀ c, g.inside c → createHalo g 2 s.lfr c = s.lfr c := by
    intro c hc
    unfold createHalo
    rw [source_inside hc]
  have hwL : ∀ c, g.inside c → a.weight (createHalo g 2 s.lfr) c = a.weight s.lfr c := by
    intro c hc
    unfold Areas.weight
    rw [hL c hc]
  have hTm : ∀ c, g.inside c → s.toc c ≠ mval → T c ≠ mval := by
    intro c hc hm
    by_cases hz : s.toc c = 0
    · rw [(hch c hc).2.1 hz]
      decide
    · obtain ⟨l, e, d, l', -, h1, -, h2, -⟩ := (hch c hc).2.2 hm hz
      rwa [h1]
  have hTm' : ∀ c, g.inside c → T c ≠ mval → s.toc c ≠ mval := fun c hc h hm => h ((hch c hc).1 hm)
  have hwT : ∀ c, g.inside c → T c ≠ mval → 0 < a.weight (createHalo g 2 s.lfr) c := by
    intro c hc hm
    rw [hwL c hc]
    exact hw c hc (hTm' c hc hm)
  have hends := ends_of_lt (toc := T) s.sub (by
    intro p hp hm hz
    obtain ⟨l, e, d, l', h0, h1, h2, h3, h4, h5, h6, h7, -⟩ := (hch p hp).2.2 (hTm' p hp hm) (fun h => hz ((hch p hp).2.1 h))
    exact ⟨_, ⟨hz, e, by rw [h0, h1]; simp, rfl⟩, h5, hTm _ h5 h6, h7⟩)
  obtain ⟨t, h0, h1, h2, h3, h4, h5, h6, h7⟩ := follow_state' a (createHalo g 2 s.lfr) (toc := T) (fuel := fuel) (by
    intro c hc hm
    obtain ⟨k, o, hk, ho⟩ := hends c hc hm
    exact ⟨k, o, by omega, ho⟩)
  have hD : Drains g T := fun c hc hm => by
    obtain ⟨k, o, -, ho⟩ := hends c hc hm
    exact ⟨k, o, ho⟩
  -- the network without dry outlets
  have hT1 : ∀ p, (dry a t).toc p = T p ∨ ((dry a t).toc p = mval ∧ T p = 0 ∧ createHalo g 2 s.lfr p = 0 ∧
      upstream g T (a.weight (createHalo g 2 s.lfr)) p = a.weight (createHalo g 2 s.lfr) p) := by
    intro p
    unfold dry
    dsimp only
    by_cases h : t.toc p = 0 ∧ t.lfr p = 0 ∧ t.suba p = a.weight t.lfr p
    · right
      rw [if_pos h]
      rw [h1, h2, h3] at h
      exact ⟨rfl, h⟩
    · left
      rw [if_neg h, h1]
  have hkeep : ∀ p, (dry a t).toc p ≠ mval → (dry a t).toc p = T p := by
    intro p hp
    rcases hT1 p with h | h
    · exact h
    · exact absurd h.1 hp
  have hdry : ∀ x c, g.inside x → T x ≠ mval → g.inside c → T c = 0 → x ≠ c → Above g T x c → (dry a t).toc c = 0 := by
    intro x c hx hxm hc hcz hne ha
    rcases hT1 c with h | h
    · rwa [h]
    · exact absurd h.2.2.2 (upstream_two hx hxm hc (by rw [hcz]; decide) ha hne hwT).ne'
  have hlfr : (dry a t).lfr = createHalo g 2 s.lfr := h2
  have hsub : (dry a t).suba = t.suba := rfl
  have htr : (dry a t).travel = t.travel := rfl
  have hib : (dry a t).ibas = t.ibas := rfl
  have hix : (dry a t).idx = t.idx := rfl
  have hil : (dry a t).ilo = t.ilo := rfl
  have hit : iteration g a false fuel s = some
      ⟨(dry a t).toc, (dry a t).lfr, (blank (dry a t)).suba,
        fun p => if g.inside p then label (sortBasins (basins g a (blank (dry a t)))) (blank (dry a t)) p else (mval : R),
        (blank (dry a t)).travel⟩ := by
    unfold iteration
    rw [hT, h0]
    rfl
  rw [hit]
  generalize dry a t = t1 at *
  have hN : ∀ p q, Next g t1.toc p q ↔ Next g T p q := by
    intro p q
    constructor
    · intro h
      have := hkeep p h.ne_mval
      unfold Next at h ⊢
      rwa [this] at h
    · intro h
      rcases hT1 p with h' | h'
      · unfold Next at h ⊢
        rwa [h']
      · exact absurd h'.2.1 h.1
  have hA : ∀ p q, Above g t1.toc p q ↔ Above g T p q := fun p q =>
    ⟨fun ⟨k, hk⟩ => ⟨k, path_congr (fun p q => (hN p q).mp) hk⟩, fun ⟨k, hk⟩ => ⟨k, path_congr (fun p q => (hN p q).mpr) hk⟩⟩
  have hE : ∀ c k o, g.inside c → t1.toc c ≠ mval → (Ends g t1.toc c k o ↔ Ends g T c k o) := by
    intro c k o hc hm
    constructor
    · rintro ⟨q1, q2, q3⟩
      exact ⟨path_congr (fun p q => (hN p q).mp) q1, by rw [← hkeep o (by rw [q2]; decide), q2], q3⟩
    · rintro ⟨q1, q2, q3⟩
      refine ⟨path_congr (fun p q => (hN p q).mpr) q1, ?_, q3⟩
      by_cases hco : c = o
      · rw [← hco, hkeep c hm, hco, q2]
      · exact hdry c o hc (by rw [← hkeep c hm]; exact hm) q3 q2 hco ⟨k, q1⟩
  have hD1 : Drains g t1.toc := by
    intro c hc hm
    obtain ⟨k, o, ho⟩ := hD c hc (by rw [← hkeep c hm]; exact hm)
    exact ⟨k, o, (hE c k o hc hm).mpr ho⟩
  have hU : ∀ p, t1.toc p ≠ mval → upstream g T (a.weight (createHalo g 2 s.lfr)) p = upstream g t1.toc (a.weight s.lfr) p := by
    intro p hp
    refine upstream_congr ?_ hwL
    intro c hc
    rw [hA]
    refine ⟨fun ⟨q1, q2⟩ => ⟨?_, q2⟩, fun ⟨q1, q2⟩ => ⟨by rw [← hkeep c q1]; exact q1, q2⟩⟩
    rcases hT1 c with h | h
    · rwa [h]
    · obtain ⟨k, hk⟩ := q2
      cases hk with
      | here => exact hp
      | step hn _ => exact absurd h.2.1 hn.1
  have hB := fun c c' k k' o o' => basins_spec (s := blank t1) a hD1 (c := c) (c' := c') (k := k) (k' := k') (o := o) (o' := o') (by
      intro c hc hm k o ho
      unfold blank
      dsimp only
      rw [if_neg hm, hib, hix]
      exact (h4 c hc (by rw [← hkeep c hm]; exact hm) k o ((hE c k o hc hm).mp ho)).2)
    (by
      intro c hc
      unfold blank
      dsimp only
      by_cases hm : t1.toc c = mval
      · rw [if_pos hm]
      · rw [if_neg hm, hib]
        exact (h5 c fun h => hc ⟨h.1, hm⟩).2)
    (by
      intro o ho hz
      unfold blank
      dsimp only
      rw [hix, hil, hlfr]
      exact h6 o ho (by rw [← hkeep o (by rw [hz]; decide), hz]))
    (by
      intro o o' ho ho' hz hz'
      unfold blank
      dsimp only
      rw [hix]
      exact h7 o o' ho ho' (by rw [← hkeep o (by rw [hz]; decide), hz]) (by rw [← hkeep o' (by rw [hz']; decide), hz']))
    rfl
  have hlf : (blank t1).lfr = createHalo g 2 s.lfr := hlfr
  refine ⟨_, rfl, ⟨?_, ?_, ?_, ?_, hD1⟩, ?_, ?_, ?_⟩
  · intro p hp
    dsimp only
    rcases hT1 p with h | h
    · rw [h, hT0 p hp]
    · exact h.1
  · intro p
    unfold blank
    dsimp only
    by_cases hm : t1.toc p = mval
    · rw [if_pos hm, if_pos hm]
    · rw [if_neg hm, if_neg hm, hsub, h3, hU p hm]
  · intro p q hp hn
    dsimp only at hn ⊢
    have hm := hn.ne_mval
    obtain ⟨k, o, ho⟩ := hD1 p hp hm
    obtain ⟨q1, q2, q3⟩ := id ho
    cases q1 with
    | here => exact absurd q2 hn.1
    | @step _ q' _ k hn' q1 =>
      have := hn.unique hn'
      subst this
      have hqm : t1.toc q ≠ mval := by
        cases q1 with
        | here => rw [q2]; decide
        | step hn' _ => exact hn'.ne_mval
      have hq : g.inside q := by
        by_contra h
        apply hqm
        rw [hkeep q hqm, hT0 q h]
      rw [if_pos hp, if_pos hq]
      exact (hB q p k (k + 1) o o hq hp hqm hm ⟨q1, q2, q3⟩ ho).1.mpr rfl
  · by_cases hnt : g.nt = 1
    · exact .inl hnt
    · right
      intro p e hp he
      dsimp only at he
      have hm : t1.toc p ≠ mval := fun h => dirs_mval (h ▸ he)
      rw [hkeep p hm] at he hm
      by_cases hz : T p = 0
      · have := (dirs_zero he).mpr hz
        subst this
        unfold Corner Pos.move
        unfold Grid.inside at hp
        dsimp only
        omega
      · obtain ⟨l, e', d, l', i0, i1, -, -, i2, -⟩ := (hch p hp).2.2 (hTm' p hp hm) (fun h => hz ((hch p hp).2.1 h))
        have he' : (e', T p) ∈ dirs := by rw [i0, i1]; simp
        rw [← offset_iff] at he he'
        rw [he] at he'
        cases he'
        exact i2.resolve_left hnt
  · intro c hc
    dsimp only
    rw [hlfr, hL c hc]
  · intro c
    dsimp only
    rcases hT1 c with h | h
    · exact .inl h
    · by_cases hc : g.inside c
      · refine .inr ⟨h.1, h.2.1, by rw [← hL c hc]; exact h.2.2.1, ?_⟩
        intro p hp hn
        have := hdry p c hp hn.ne_mval hc h.2.1 (fun hpc => hn.1 (hpc ▸ h.2.1)) ⟨1, .step hn (.here _)⟩
        rw [h.1] at this
        exact absurd this (by decide)
      · left
        rw [h.1, hT0 c hc]
  · intro c c' k k' o o' hc hc' hm hm' ho ho'
    dsimp only at hm hm' ho ho' ⊢
    rw [if_pos hc, if_pos hc']
    have hb := hB c c' k k' o o' hc hc' hm hm' ho ho'
    refine ⟨?_, hb.1, ?_⟩
    · unfold blank
      dsimp only
      rw [if_neg hm, htr]
      exact (h4 c hc (by rw [← hkeep c hm]; exact hm) k o ((hE c k o hc hm).mp ho)).1
    · intro hlt
      have hle := hb.2.1 hlt
      have ho0 : t1.toc o ≠ mval := by rw [ho.2.1]; decide
      have ho0' : t1.toc o' ≠ mval := by rw [ho'.2.1]; decide
      have hc1 : ∀ p, upstream g t1.toc (a.weight (createHalo g 2 s.lfr)) p = upstream g t1.toc (a.weight s.lfr) p := fun p =>
        upstream_congr (fun _ _ => Iff.rfl) hwL
      rw [hlf, hc1, hc1] at hle
      unfold blank
      dsimp only
      rw [if_neg ho0, if_neg ho0', hsub, h3, h3, hU o ho0, hU o' ho0']
      exact hle

/-- rmv_parallel_rivers never hangs and never spoils a network: if a consistent network is given, and all its cells have a positive
area, then any number of iterations comes to an end, and the network with its areas and basins is again consistent. -/
theorem C103_iterations {g : Grid} (a : Areas R) {s : Net R} (hs : Consistent g (a.weight s.lfr) s)
    (hw : ∀ c, g.inside c → s.toc c ≠ mval → 0 < a.weight s.lfr c) {fuel : Nat} (hf : (cells g).length < fuel) (n : Nat) :
    ∃ s', iterations g a false fuel n s = some s' ∧ Consistent g (a.weight s.lfr) s' ∧ (∀ c, g.inside c → s'.lfr c = s.lfr c) ∧
      ∀ c, s'.toc c ≠ mval → s.toc c ≠ mval := by
  induction n generalizing s with
  | zero => exact ⟨s, rfl, hs, fun _ _ => rfl, fun _ h => h⟩
  | succ n ih =>
    obtain ⟨s1, h1, h2, h3, h4, -⟩ := C103_iteration a hs hw hf
    have hm : ∀ c, s1.toc c ≠ mval → s.toc c ≠ mval := by
      intro c hc
      rcases h4 c with h | h
      · by_cases hi : g.inside c
        · intro hm
          exact hc (by rw [h, (C103_choice hs hw hi).1 hm])
        · intro _
          exact hc (h2.outside c hi)
      · exact absurd h.1 hc
    have hwe : ∀ c, g.inside c → a.weight s1.lfr c = a.weight s.lfr c := by
      intro c hc
      unfold Areas.weight
      rw [h3 c hc]
    have hcons : ∀ s2 : Net R, Consistent g (a.weight s1.lfr) s2 ↔ Consistent g (a.weight s.lfr) s2 := by
      have hu : ∀ (toc : Pos → Int) p, upstream g toc (a.weight s1.lfr) p = upstream g toc (a.weight s.lfr) p := fun toc p =>
        upstream_congr (fun _ _ => Iff.rfl) hwe
      intro s2
      constructor
      · exact fun h => ⟨h.outside, fun p => by rw [h.area, hu], h.basin, h.edge, h.drains⟩
      · exact fun h => ⟨h.outside, fun p => by rw [h.area, hu], h.basin, h.edge, h.drains⟩
    obtain ⟨s', i1, i2, i3, i4⟩ := ih ((hcons s1).mpr h2) (fun c hc hm' => by rw [hwe c hc]; exact hw c hc (hm c hm'))
    refine ⟨s', ?_, (hcons s').mp i2, fun c hc => (i3 c hc).trans (h3 c hc), fun c hc => hm c (i4 c hc)⟩
    unfold iterations
    rw [h1]
    exact i1

/-- The network with the areas and basins that cp_river_vars finds for it -/
def netOf (g : Grid) (a : Areas R) (t : State R) : Net R :=
  ⟨t.toc, t.lfr, (blank t).suba,
    fun p => if g.inside p then label (sortBasins (basins g a (blank t))) (blank t) p else (mval : R), (blank t).travel⟩

/-- What cp_river_vars makes of a network in which all rivers end is consistent: this is the network given to
rmv_parallel_rivers. -/
theorem C103_start {g : Grid} (a : Areas R) {toc : Pos → Int} (lfr : Pos → R) (h : Drains g toc)
    (hout : ∀ p, ¬ g.inside p → toc p = mval)
    (hedge : g.nt = 1 ∨ ∀ p e, g.inside p → (e, toc p) ∈ dirs → ¬ Corner g (p.move e)) :
    ∃ f, ∀ fuel, f ≤ fuel → ∃ t, follow g a fuel toc lfr = some t ∧ (netOf g a t).toc = toc ∧ (netOf g a t).lfr = lfr ∧
      Consistent g (a.weight lfr) (netOf g a t) := by
  obtain ⟨f, hf⟩ := follow_state a lfr h
  refine ⟨f, fun fuel hfuel => ?_⟩
  obtain ⟨t, h0, h1, h2, h3, h4, h5, h6, h7⟩ := hf fuel hfuel
  refine ⟨t, h0, h1, h2, ?_, ?_, ?_, ?_, ?_⟩
  · intro p hp
    unfold netOf
    dsimp only
    rw [h1, hout p hp]
  · intro p
    unfold netOf blank
    dsimp only
    rw [h1, h3]
  · intro p q hp hn
    have hlf : (blank t).lfr = lfr := h2
    unfold netOf at hn ⊢
    dsimp only at hn ⊢
    rw [h1] at hn
    have hm := hn.ne_mval
    obtain ⟨k, o, ho⟩ := h p hp hm
    obtain ⟨q1, q2, q3⟩ := id ho
    cases q1 with
    | here => exact absurd q2 hn.1
    | @step _ q' _ k hn' q1 =>
      have := hn.unique hn'
      subst this
      have hqm : toc q ≠ mval := by
        cases q1 with
        | here => rw [q2]; decide
        | step hn' _ => exact hn'.ne_mval
      have hq : g.inside q := by
        by_contra h
        exact hqm (hout q h)
      rw [if_pos hp, if_pos hq]
      refine (basins_spec (s := blank t) a h ?_ ?_ ?_ h7 rfl hq hp hqm hm ⟨q1, q2, q3⟩ ho).1.mpr rfl
      · intro c hc hm k o ho
        unfold blank
        dsimp only
        rw [h1, if_neg hm]
        exact (h4 c hc hm k o ho).2
      · intro c hc
        unfold blank
        dsimp only
        rw [(h5 c hc).2, ite_self]
      · intro o ho hz
        rw [hlf]
        exact h6 o ho hz
  · unfold netOf
    dsimp only
    rw [h1]
    exact hedge
  · unfold netOf
    dsimp only
    rw [h1]
    exact h

/-- A network for the theorems above, see `hydroToc` -/
example : ∃ s : Net ℚ, Consistent ⟨1, 3, 1⟩ ((⟨fun _ => 2, false⟩ : Areas ℚ).weight s.lfr) s ∧ s.toc = hydroToc ∧
    ∀ c, 0 < (⟨fun _ => 2, false⟩ : Areas ℚ).weight s.lfr c := by
  obtain ⟨f, hf⟩ := C103_start (⟨fun _ => 2, false⟩ : Areas ℚ) (fun _ => 1) hydroToc_drains (by
    intro p hp
    unfold hydroToc
    rw [if_neg, if_neg]
    · rintro rfl
      exact hp (by decide)
    · rintro (rfl | rfl)
      · exact hp (by decide)
      · exact hp (by decide)) (.inl rfl)
  obtain ⟨t, -, h1, h2, h3⟩ := hf f le_rfl
  refine ⟨_, ?_, h1, ?_⟩
  · rw [h2]
    exact h3
  · intro c
    simp [Areas.weight]

/-- The length of a river, for a grid of one tile: the sum of the distances along the river to its outlet -/
theorem C102_length {g : Grid} (h1 : g.nt = 1) (dist : Pos → Pos → R) {toc : Pos → Int} (hout : ∀ p, ¬ g.inside p → toc p = mval)
    {c o : Pos} {l : R} (h : Course g toc dist c l o) (hz : toc o = 0) (ho : g.inside o) :
    ∃ f, ∀ fuel, f ≤ fuel → rivlen g dist toc c.n fuel c 0 = some l := by
  have hn : ∀ p q, Next g toc p q → q.n = p.n := by
    rintro p q ⟨-, e, -, rfl⟩
    unfold wrap Pos.move
    rw [if_pos h1]
    split_ifs <;> rfl
  have key : ∀ {c o : Pos} {l : R}, Course g toc dist c l o → toc o = 0 → g.inside o → ∀ n, n = c.n → g.inside c ∧
      ∃ f, ∀ fuel, f ≤ fuel → ∀ x, rivlen g dist toc n fuel c x = some (x + l) := by
    intro c o l h
    induction h with
    | here p =>
      intro hz ho n _
      refine ⟨ho, 1, ?_⟩
      intro fuel hf x
      obtain ⟨fuel, rfl⟩ : ∃ k, fuel = k + 1 := ⟨fuel - 1, by omega⟩
      unfold rivlen
      rw [hz, offset_zero]
      simp
    | @step p q r l hn' hc ih =>
      intro hz ho n hnp
      subst hnp
      have hp : g.inside p := by
        by_contra hp
        exact hn'.ne_mval (hout p hp)
      obtain ⟨hq, f, hf⟩ := ih hz ho p.n (hn p q hn').symm
      refine ⟨hp, f + 1, ?_⟩
      intro fuel hfuel x
      obtain ⟨fuel, rfl⟩ : ∃ k, fuel = k + 1 := ⟨fuel - 1, by omega⟩
      obtain ⟨h0, e, he, rfl⟩ := hn'
      unfold rivlen
      rw [offset_iff.mpr he]
      dsimp only
      have hs1 : source g 1 p = p := source_inside hp
      have hs2 : source g 1 (p.move e) = wrap g (p.move e) := source_wrap (le_refl 1) hp (dirs_unit he) (.inl h1)
      have hpp : (⟨p.x, p.y, p.n⟩ : Pos) = p := rfl
      rw [if_neg h0, hpp, hs1, hs2, hf fuel (by omega), add_assoc]
  obtain ⟨-, f, hf⟩ := key h hz ho c.n rfl
  exact ⟨f, fun fuel hfuel => by rw [hf fuel hfuel, zero_add]⟩

/-- A river on a cubed sphere: (2,1) of tile 1 flows east to (1,1) of tile 2 and then to (2,1) there -/
def tileToc (p : Pos) : Int := if p = ⟨2, 1, 1⟩ ∨ p = ⟨1, 1, 2⟩ then 1 else if p = ⟨2, 1, 2⟩ then 0 else mval

/-- On a cubed sphere, a river that comes to another tile has a wrong length: the distances are taken between the cells with the same
indices in the tile where it started. Here cells of tile 1 have the distance 5, others 1; the river has no step in tile 1 and the
length 2, and it is given as 6. -/
theorem C102_length_wrong : ∃ dist : Pos → Pos → ℚ, Course ⟨6, 2, 2⟩ tileToc dist ⟨2, 1, 1⟩ 2 ⟨2, 1, 2⟩ ∧ tileToc ⟨2, 1, 2⟩ = 0 ∧
    ∀ fuel, 3 ≤ fuel → rivlen ⟨6, 2, 2⟩ dist tileToc 1 fuel ⟨2, 1, 1⟩ 0 = some 6 := by
  refine ⟨fun p q => if p.n = 1 ∧ q.n = 1 then 5 else 1, ?_, by decide, ?_⟩
  · have n1 : Next ⟨6, 2, 2⟩ tileToc ⟨2, 1, 1⟩ ⟨1, 1, 2⟩ := ⟨by decide, (1, 0), by decide, by decide⟩
    have n2 : Next ⟨6, 2, 2⟩ tileToc ⟨1, 1, 2⟩ ⟨2, 1, 2⟩ := ⟨by decide, (1, 0), by decide, by decide⟩
    have := Course.step (dist := fun p q : Pos => if p.n = 1 ∧ q.n = 1 then (5 : ℚ) else 1) n1 (.step n2 (.here _))
    norm_num at this
    exact this
  · intro fuel hf
    obtain ⟨fuel, rfl⟩ : ∃ k, fuel = k + 3 := ⟨fuel - 3, by omega⟩
    have o1 : offset (tileToc ⟨2, 1, 1⟩) = some (1, 0) := by decide
    have o2 : offset (tileToc ⟨1, 1, 2⟩) = some (1, 0) := by decide
    have o3 : offset (tileToc ⟨2, 1, 2⟩) = some (0, 0) := by decide
    have w1 : wrap ⟨6, 2, 2⟩ ((⟨2, 1, 1⟩ : Pos).move (1, 0)) = ⟨1, 1, 2⟩ := by decide
    have w2 : wrap ⟨6, 2, 2⟩ ((⟨1, 1, 2⟩ : Pos).move (1, 0)) = ⟨2, 1, 2⟩ := by decide
    have s1 : (source ⟨6, 2, 2⟩ 1 ((⟨2, 1, 1⟩ : Pos).move (1, 0))).n = 2 := by decide
    have s2 : (source ⟨6, 2, 2⟩ 1 ((⟨1, 1, 1⟩ : Pos).move (1, 0))).n = 1 := by decide
    have s3 : (source ⟨6, 2, 2⟩ 1 ⟨1, 1, 1⟩).n = 1 := by decide
    unfold rivlen
    rw [o1]
    dsimp only
    rw [if_neg (by decide), w1]
    unfold rivlen
    rw [o2]
    dsimp only
    rw [if_neg (by decide), w2]
    unfold rivlen
    rw [o3]
    dsimp only
    rw [if_pos (by decide), s1, s2, s3]
    norm_num

/-- The arrays for the outlets may be too small: with 4 by 4 cells that are all outlets there are 16 of them, and cp_river_vars has room
for 9; on a cubed sphere with tiles of 3 by 3 cells there are 54, and there is room for 25 in cp_river_vars and for 49 in
rmv_parallel_rivers. -/
theorem C102_room_wrong : ∃ (toc toc' : Pos → Int), Drains ⟨1, 4, 4⟩ toc ∧ Drains ⟨6, 3, 3⟩ toc' ∧
    ∃ s s' : State ℚ, follow ⟨1, 4, 4⟩ ⟨fun _ => 1, false⟩ 1 toc (fun _ => 1) = some s ∧
      follow ⟨6, 3, 3⟩ ⟨fun _ => 1, false⟩ 1 toc' (fun _ => 1) = some s' ∧
      room ⟨1, 4, 4⟩ 1 < s.ilo.length ∧ room ⟨6, 3, 3⟩ 1 < s'.ilo.length ∧ room ⟨6, 3, 3⟩ 2 < s'.ilo.length := by
  refine ⟨fun _ => 0, fun _ => 0, fun c hc _ => ⟨0, c, .here c, rfl, hc⟩, fun c hc _ => ⟨0, c, .here c, rfl, hc⟩, ?_⟩
  have h1 : (follow ⟨1, 4, 4⟩ ⟨fun _ => (1 : ℚ), false⟩ 1 (fun _ => 0) (fun _ => 1)).map (fun s => s.ilo.length) = some 16 := by
    decide +kernel
  have h2 : (follow ⟨6, 3, 3⟩ ⟨fun _ => (1 : ℚ), false⟩ 1 (fun _ => 0) (fun _ => 1)).map (fun s => s.ilo.length) = some 54 := by
    decide +kernel
  obtain ⟨s, hs, e1⟩ := Option.map_eq_some_iff.mp h1
  obtain ⟨s', hs', e2⟩ := Option.map_eq_some_iff.mp h2
  refine ⟨s, s', hs, hs', ?_, ?_, ?_⟩
  · rw [e1]; decide
  · rw [e2]; decide
  · rw [e2]; decide

/-! ### Networks that do not meet the hypotheses -/

omit [IsStrictOrderedRing R] in
theorem endless_pair {g : Grid} {toc : Pos → Int} {p q : Pos} (h : Next g toc p q) (h' : Next g toc q p) : Endless g toc p := by
  have key : ∀ k, (∃ r, Path g toc p k r) ∧ ∃ r, Path g toc q k r := by
    intro k
    induction k with
    | zero => exact ⟨⟨p, .here p⟩, ⟨q, .here q⟩⟩
    | succ k ih =>
      obtain ⟨⟨r, hr⟩, ⟨r', hr'⟩⟩ := ih
      exact ⟨⟨r', .step h hr'⟩, ⟨r, .step h' hr⟩⟩
  exact fun k => (key k).1

/-- Two cells of land, (2,2) and (3,2), that flow south to an outlet each -/
def tieToc (p : Pos) : Int :=
  if p = ⟨2, 2, 1⟩ ∨ p = ⟨3, 2, 1⟩ then 4 else if p = ⟨2, 1, 1⟩ ∨ p = ⟨3, 1, 1⟩ then 0 else mval

def tieLand (p : Pos) : ℚ := if p = ⟨2, 2, 1⟩ ∨ p = ⟨3, 2, 1⟩ then 1 else 0

/-- Cells of positive area are needed: if areas are scaled with the part of land, outlets in the sea have no area of their own. Two
neighbours with the same area then have the same area as their outlets, and with "the last of the best" they are led to each other.
The network that is given is right, each river has an outlet; the first iteration makes a circle and never ends. -/
theorem C103_tie_wrong : ∃ t, follow ⟨1, 4, 3⟩ ⟨fun _ => (1 : ℚ), true⟩ 3 tieToc tieLand = some t ∧
    ∀ fuel, iteration ⟨1, 4, 3⟩ ⟨fun _ => (1 : ℚ), true⟩ false fuel (netOf ⟨1, 4, 3⟩ ⟨fun _ => (1 : ℚ), true⟩ t) = none := by
  have h0 : (follow ⟨1, 4, 3⟩ ⟨fun _ => (1 : ℚ), true⟩ 3 tieToc tieLand).map (fun t =>
      (redirect ⟨1, 4, 3⟩ false (netOf ⟨1, 4, 3⟩ ⟨fun _ => (1 : ℚ), true⟩ t) ⟨2, 2, 1⟩,
        redirect ⟨1, 4, 3⟩ false (netOf ⟨1, 4, 3⟩ ⟨fun _ => (1 : ℚ), true⟩ t) ⟨3, 2, 1⟩)) = some (1, 16) := by decide +kernel
  obtain ⟨t, ht, h1⟩ := Option.map_eq_some_iff.mp h0
  rw [Prod.mk.injEq] at h1
  obtain ⟨h1, h2⟩ := h1
  refine ⟨t, ht, fun fuel => ?_⟩
  have hn : Next ⟨1, 4, 3⟩ (redirect ⟨1, 4, 3⟩ false (netOf ⟨1, 4, 3⟩ ⟨fun _ => (1 : ℚ), true⟩ t)) ⟨2, 2, 1⟩ ⟨3, 2, 1⟩ :=
    ⟨by rw [h1]; decide, (1, 0), by rw [h1]; decide, by decide⟩
  have hn' : Next ⟨1, 4, 3⟩ (redirect ⟨1, 4, 3⟩ false (netOf ⟨1, 4, 3⟩ ⟨fun _ => (1 : ℚ), true⟩ t)) ⟨3, 2, 1⟩ ⟨2, 2, 1⟩ :=
    ⟨by rw [h2]; decide, (-1, 0), by rw [h2]; decide, by decide⟩
  unfold iteration
  rw [C102_endless _ _ (by decide) (endless_pair hn hn') fuel]
  rfl

/-- Two cells with a part of land, (2,4) and (3,4), the first of which flows to land at (2,3) and to the outlet (2,2); the second flows
to (2,3) too -/
def constToc (p : Pos) : Int :=
  if p = ⟨2, 4, 1⟩ ∨ p = ⟨2, 3, 1⟩ then 4 else if p = ⟨3, 4, 1⟩ then 8 else if p = ⟨2, 2, 1⟩ then 0 else mval

def constLand (p : Pos) : ℚ := if p = ⟨2, 3, 1⟩ then 1 else if p = ⟨2, 4, 1⟩ ∨ p = ⟨3, 4, 1⟩ ∨ p = ⟨2, 2, 1⟩ then 1 / 2 else 1

/-- With `add_ocean_const` it is not enough that all areas are positive: the number that is added for cells with a part of sea makes
rivers flow back to such cells, here in a circle -/
theorem C103_ocean_const_wrong : ∃ t, follow ⟨1, 6, 4⟩ ⟨fun _ => (1 : ℚ), false⟩ 4 constToc constLand = some t ∧
    (∀ c, (0 : ℚ) < (⟨fun _ => (1 : ℚ), false⟩ : Areas ℚ).weight constLand c) ∧
    ∀ fuel, iteration ⟨1, 6, 4⟩ ⟨fun _ => (1 : ℚ), false⟩ true fuel (netOf ⟨1, 6, 4⟩ ⟨fun _ => (1 : ℚ), false⟩ t) = none := by
  have h0 : (follow ⟨1, 6, 4⟩ ⟨fun _ => (1 : ℚ), false⟩ 4 constToc constLand).map (fun t =>
      (redirect ⟨1, 6, 4⟩ true (netOf ⟨1, 6, 4⟩ ⟨fun _ => (1 : ℚ), false⟩ t) ⟨2, 4, 1⟩,
        redirect ⟨1, 6, 4⟩ true (netOf ⟨1, 6, 4⟩ ⟨fun _ => (1 : ℚ), false⟩ t) ⟨3, 4, 1⟩)) = some (1, 16) := by decide +kernel
  obtain ⟨t, ht, h1⟩ := Option.map_eq_some_iff.mp h0
  rw [Prod.mk.injEq] at h1
  obtain ⟨h1, h2⟩ := h1
  refine ⟨t, ht, fun c => by simp [Areas.weight], fun fuel => ?_⟩
  have hn : Next ⟨1, 6, 4⟩ (redirect ⟨1, 6, 4⟩ true (netOf ⟨1, 6, 4⟩ ⟨fun _ => (1 : ℚ), false⟩ t)) ⟨2, 4, 1⟩ ⟨3, 4, 1⟩ :=
    ⟨by rw [h1]; decide, (1, 0), by rw [h1]; decide, by decide⟩
  have hn' : Next ⟨1, 6, 4⟩ (redirect ⟨1, 6, 4⟩ true (netOf ⟨1, 6, 4⟩ ⟨fun _ => (1 : ℚ), false⟩ t)) ⟨3, 4, 1⟩ ⟨2, 4, 1⟩ :=
    ⟨by rw [h2]; decide, (-1, 0), by rw [h2]; decide, by decide⟩
  unfold iteration
  rw [C102_endless _ _ (by decide) (endless_pair hn hn') fuel]
  rfl

end Verif.Hydrog
