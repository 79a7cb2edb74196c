import Verif.Lemmas.SplitVars
namespace Verif.SplitVars
open Verif.Spec.SplitVars
variable {α : Type}

theorem cellMeasures_iff (h : Head) (n x : String) : x ∈ cellMeasures h n ↔
    ∃ d ws, Along h n d ∧ HasAtt h n "cell_measures" ws ∧ x ∈ ws ∧ x.toList.getLast? ≠ some ':' := by
  unfold cellMeasures
  cases hd : h.hasDims n with
  | false =>
    simp only [Bool.false_eq_true, if_false, List.not_mem_nil, false_iff]
    rintro ⟨d, ws, h1, _⟩
    rw [(hasDims_iff h n).2 ⟨d, h1⟩] at hd
    cases hd
  | true =>
    obtain ⟨d, h1⟩ := (hasDims_iff h n).1 hd
    simp only [if_true, List.mem_filter, ← att_iff]
    cases ha : att h n "cell_measures" with
    | none => simp
    | some l =>
      simp only [Option.getD_some, decide_eq_true_eq, Option.some.injEq]
      constructor
      · rintro ⟨h2, h3⟩
        exact ⟨d, l, h1, rfl, h2, h3⟩
      · rintro ⟨_, _, _, rfl, h2, h3⟩
        exact ⟨h2, h3⟩

theorem external_iff (h : Head) (n x : String) : x ∈ cellMeasures h n ++ xTerms h n ↔ External h n x := by
  have hs := isStatic_iff h x
  unfold xTerms
  simp only [List.mem_append, cellMeasures_iff, List.mem_filter, allTerms_iff, Bool.not_eq_true', ← Bool.not_eq_true, hs]
  constructor
  · rintro (⟨d, ws, h1, h2, h3, h4⟩ | ⟨⟨d, h1, h2⟩, h3⟩)
    · exact .measure h1 h2 h3 h4
    · exact .term h1 h2 (by tauto)
  · rintro (⟨h1, h2, h3, h4⟩ | ⟨h1, h2, h3⟩)
    · exact .inl ⟨_, _, h1, h2, h3, h4⟩
    · exact .inr ⟨⟨_, h1, h2⟩, by tauto⟩

theorem write_new {ok : Nat → Bool} (hok : ∀ i, ok i = true) {f : Input α} {time : Option String} {n : String} {vl xl : List String}
    {w : World α} {b : List (String × Bool × List α)} (hb : ncks f vl = some b) (hn : w.out ⟨n, f.tile, ""⟩ = none) :
    write ok f time n vl xl w =
      .ok { w with calls := w.calls + 1, out := Function.update w.out ⟨n, f.tile, f.ext⟩ (some ⟨b, xl⟩) } := by
  unfold write
  simp [hok, hb, hn]

theorem write_old {ok : Nat → Bool} (hok : ∀ i, ok i = true) {f : Input α} {time : Option String} (ht : time ≠ none) {n : String}
    {vl xl : List String} {w : World α} {b : List (String × Bool × List α)} (hb : ncks f vl = some b) {a : Out α}
    (hn : w.out ⟨n, f.tile, ""⟩ = some a) :
    write ok f time n vl xl w =
      .ok { w with calls := w.calls + 2, out := Function.update w.out ⟨n, f.tile, ""⟩ (some (ncrcat a b)) } := by
  unfold write
  simp [hok, hb, hn, ht]

theorem oneVar_fit {o : Opts} (ho : Plain o) {ok : Nat → Bool} (hok : ∀ i, ok i = true) {f : Input α} {n : String}
    (hf : Fit (isCmip o f.head n) f n) (w : World α) :
    ∃ w', oneVar o ok f f.head.unlimited (⟨coords f.head, []⟩, w) n = .ok (⟨coords f.head, []⟩, w') ∧ w'.bad = w.bad ∧
      w'.removed = w.removed ∧ (∀ k, k ≠ ⟨n, f.tile, ""⟩ → w'.out k = w.out k) ∧
      Added (isCmip o f.head n) f n (w.out ⟨n, f.tile, ""⟩) (w'.out ⟨n, f.tile, ""⟩) := by
  obtain ⟨t, ht, hal⟩ := hf.record
  have hhas : f.head.has n = true := has_of_along hal
  have hps : psNeeded o f.head n = false := by simp [psNeeded, ho.noPs]
  obtain ⟨m, hm, hmem⟩ := timeVars_some o f.head t n ht hf.notBounds
  have hgeo : ∀ x ∈ coords f.head, f.head.has x = true := fun x hx => has_of_along ((coords_iff _ _).1 hx).2.choose_spec
  have hmh : ∀ x ∈ m, f.head.has x = true := fun x hx => hf.here x ((hmem x).1 hx)
  cases hk : w.out ⟨n, f.tile, ""⟩ with
  | none =>
    obtain ⟨b, hb⟩ := ncks_some (f := f) (l := coords f.head ++ [n] ++ firstTime f.head n ++ m) (by
      intro x hx
      simp only [List.mem_append, List.mem_singleton] at hx
      rcases hx with ((hx | rfl) | hx) | hx
      · exact hgeo x hx
      · exact hhas
      · exact once_has ((firstTime_iff _ _ _).1 hx)
      · exact hmh x hx)
    refine ⟨{ w with
      calls := w.calls + 1
      out := Function.update w.out ⟨n, f.tile, f.ext⟩ (some ⟨b, [] ++ cellMeasures f.head n ++ xTerms f.head n⟩) }, ?_, rfl, rfl, ?_, ?_⟩
    · unfold oneVar
      simp only [hhas, Bool.not_true, Bool.false_eq_true, if_false, hk, Option.isNone_none, if_true, hps, ht, extra, hm, ho.many]
      rw [write_new hok hb hk]
    · intro k hne
      dsimp only
      rw [hf.plain, Function.update_of_ne hne]
    · dsimp only
      rw [hf.plain, Function.update_self]
      refine ⟨fun _ => ⟨_, rfl, ?_, ?_, ?_⟩, fun a ha => by cases ha⟩
      · intro x
        dsimp only
        rw [ncks_names hb]
        simp only [List.mem_append, List.mem_singleton, coords_iff, firstTime_iff, hmem]
        tauto
      · intro x hx
        dsimp only at hx
        rw [ncks_names hb] at hx
        refine ⟨_, ?_, record_iff f.head x⟩
        unfold Out.get
        dsimp only
        rw [ncks_get hb hx]
        rfl
      · intro x
        dsimp only
        rw [List.nil_append]
        exact external_iff _ _ _
  | some a =>
    obtain ⟨b, hb⟩ := ncks_some (f := f) (l := coords f.head ++ [n] ++ m) (by
      intro x hx
      simp only [List.mem_append, List.mem_singleton] at hx
      rcases hx with (hx | rfl) | hx
      · exact hgeo x hx
      · exact hhas
      · exact hmh x hx)
    refine ⟨{ w with calls := w.calls + 2, out := Function.update w.out ⟨n, f.tile, ""⟩ (some (ncrcat a b)) }, ?_, rfl, rfl, ?_, ?_⟩
    · unfold oneVar
      simp only [hhas, Bool.not_true, Bool.false_eq_true, if_false, hk, Option.isNone_some, hps, ht, extra, hm, ho.many]
      rw [write_old hok (by simp) hb hk]
    · intro k hne
      dsimp only
      rw [Function.update_of_ne hne]
    · dsimp only
      rw [Function.update_self]
      refine ⟨fun h => (by cases h), fun a' ha => ?_⟩
      cases ha
      refine ⟨_, rfl, rfl, ?_, ?_, ?_⟩
      · unfold ncrcat
        dsimp only
        rw [List.map_map]
        apply List.map_congr_left
        intro e _
        show (if e.2.1 = true then _ else e).1 = _
        by_cases he : e.2.1 = true
        · rw [if_pos he]
        · rw [if_neg he]
      · intro x l hx hl
        rw [ncrcat_get, hl]
        have hx' : x ∈ coords f.head ++ [n] ++ m := by
          simp only [List.mem_append, List.mem_singleton, hmem]
          tauto
        rw [ncks_get hb hx']
        rfl
      · intro x l hl
        rw [ncrcat_get, hl]
        rfl

theorem varLoop_fit {o : Opts} (ho : Plain o) {ok : Nat → Bool} (hok : ∀ i, ok i = true) {f : Input α} (vs : List String) (hn : vs.Nodup)
    (hf : ∀ n ∈ vs, Fit (isCmip o f.head n) f n) (w : World α) :
    ∃ w', varLoop o ok f f.head.unlimited vs (⟨coords f.head, []⟩, w) = .ok (⟨coords f.head, []⟩, w') ∧ w'.bad = w.bad ∧
      w'.removed = w.removed ∧ (∀ k : Key, (∀ n ∈ vs, k ≠ ⟨n, f.tile, ""⟩) → w'.out k = w.out k) ∧
      ∀ n ∈ vs, Added (isCmip o f.head n) f n (w.out ⟨n, f.tile, ""⟩) (w'.out ⟨n, f.tile, ""⟩) := by
  induction vs generalizing w with
  | nil => exact ⟨w, rfl, rfl, rfl, fun _ _ => rfl, fun n hn => by cases hn⟩
  | cons v vs ih =>
    obtain ⟨w1, h1, hb1, hr1, hk1, ha1⟩ := oneVar_fit ho hok (hf v (List.mem_cons_self ..)) w
    obtain ⟨hv, hn'⟩ := List.nodup_cons.1 hn
    obtain ⟨w2, h2, hb2, hr2, hk2, ha2⟩ := ih hn' (fun n hm => hf n (List.mem_cons_of_mem _ hm)) w1
    refine ⟨w2, ?_, hb2.trans hb1, hr2.trans hr1, ?_, ?_⟩
    · unfold varLoop
      rw [h1]
      exact h2
    · intro k hk
      rw [hk2 k fun n hm => hk n (List.mem_cons_of_mem _ hm), hk1 k (hk v (List.mem_cons_self ..))]
    · intro n hm
      rcases List.mem_cons.1 hm with rfl | hm
      · rw [hk2 _ fun m hmm h => by
          injection h with h3
          exact hv (h3 ▸ hmm)]
        exact ha1
      · have hne : (⟨n, f.tile, ""⟩ : Key) ≠ ⟨v, f.tile, ""⟩ := by
          intro h
          injection h with h3
          exact hv (h3 ▸ hm)
        rw [← hk1 _ hne]
        exact ha2 n hm

theorem oneFile_fit {o : Opts} (ho : Plain o) {ok : Nat → Bool} (hok : ∀ i, ok i = true) {f : Input α} (vs : List String) (hne : vs ≠ [])
    (hn : vs.Nodup) (hf : ∀ n ∈ vs, Fit (isCmip o f.head n) f n) (w : World α) (k : Nat) :
    ∃ w', oneFile o ok (vs, w) f k = .ok (vs, w') ∧ w'.bad = w.bad ∧
      (∀ k : Key, (∀ n ∈ vs, k ≠ ⟨n, f.tile, ""⟩) → w'.out k = w.out k) ∧
      ∀ n ∈ vs, Added (isCmip o f.head n) f n (w.out ⟨n, f.tile, ""⟩) (w'.out ⟨n, f.tile, ""⟩) := by
  obtain ⟨v, hv⟩ := List.exists_mem_of_ne_nil _ hne
  obtain ⟨w', h1, hb, hr, hk, ha⟩ := varLoop_fit ho hok vs hn hf w
  unfold oneFile
  simp only [(hf v hv).readable, Bool.not_true, Bool.false_eq_true, if_false, nextList, hne, ho.notStatic, h1]
  refine ⟨_, rfl, ?_, ?_, ?_⟩
  · cases o.archive <;> exact hb
  · cases o.archive <;> exact hk
  · cases o.archive <;> exact ha

theorem fileLoop_fit {o : Opts} (ho : Plain o) {ok : Nat → Bool} (hok : ∀ i, ok i = true) (vs : List String) (hne : vs ≠ [])
    (hn : vs.Nodup) (fs : List (Input α)) (hf : ∀ f ∈ fs, ∀ n ∈ vs, Fit (isCmip o f.head n) f n) (w : World α) (k : Nat) :
    ∃ w', fileLoop o ok fs k (vs, w) = .ok (vs, w') ∧ w'.bad = w.bad ∧
      (∀ k : Key, (k.var ∉ vs ∨ k.ext ≠ "") → w'.out k = w.out k) ∧
      (∀ n ∈ vs, ∀ t, (w'.out ⟨n, t, ""⟩).isSome ↔ (w.out ⟨n, t, ""⟩).isSome ∨ ∃ f ∈ fs, f.tile = t) ∧
      ∀ n ∈ vs, ∀ x, (∀ f ∈ fs, (x = n ∨ Always (isCmip o f.head n) f.head n x) ∧ Record f.head x) →
        ∀ t, (∀ a, w.out ⟨n, t, ""⟩ = some a → ∃ l, a.get x = some (true, l)) →
          held w' n t x = held w n t x ++ (fs.filter fun f => f.tile = t).flatMap fun f => f.data x := by
  induction fs generalizing w k with
  | nil => exact ⟨w, rfl, rfl, fun _ _ => rfl, fun n _ t => by simp, fun n _ x _ t _ => by simp⟩
  | cons f fs ih =>
    obtain ⟨w1, h1, hb1, hk1, ha1⟩ := oneFile_fit ho hok vs hne hn (hf f (List.mem_cons_self ..)) w k
    obtain ⟨w2, h2, hb2, hk2, hs2, hh2⟩ := ih (fun g hg => hf g (List.mem_cons_of_mem _ hg)) w1 (k + 1)
    refine ⟨w2, ?_, hb2.trans hb1, ?_, ?_, ?_⟩
    · unfold fileLoop
      rw [h1]
      exact h2
    · intro k' hk'
      rw [hk2 k' hk', hk1 k']
      intro n hm he
      subst he
      rcases hk' with h | h
      · exact h hm
      · exact h rfl
    · intro n hm t
      rw [hs2 n hm t]
      by_cases ht : f.tile = t
      · subst ht
        have : (w1.out ⟨n, f.tile, ""⟩).isSome = true := by
          cases hw : w.out ⟨n, f.tile, ""⟩ with
          | none =>
            obtain ⟨g, hg, _⟩ := (ha1 n hm).fresh hw
            rw [hg]; rfl
          | some a =>
            obtain ⟨g, hg, _⟩ := (ha1 n hm).old a hw
            rw [hg]; rfl
        simp [this]
      · rw [hk1 ⟨n, t, ""⟩ (fun m _ h => by injection h with _ h3; exact ht h3.symm)]
        simp [ht]
    · intro n hm x hx t ha
      obtain ⟨hxf, hrf⟩ := hx f (List.mem_cons_self ..)
      by_cases ht : f.tile = t
      · subst ht
        have hstep : held w1 n f.tile x = held w n f.tile x ++ f.data x ∧
            ∀ a, w1.out ⟨n, f.tile, ""⟩ = some a → ∃ l, a.get x = some (true, l) := by
          cases hw : w.out ⟨n, f.tile, ""⟩ with
          | none =>
            obtain ⟨g, hg, hnames, hget, _⟩ := (ha1 n hm).fresh hw
            have hxn : x ∈ g.vars.map (·.1) := (hnames x).2 (by tauto)
            obtain ⟨r, hr, hrr⟩ := hget x hxn
            have hrt : r = true := hrr.2 hrf
            subst hrt
            refine ⟨?_, fun a h => ?_⟩
            · unfold held
              rw [hg, hw]
              simp [hr]
            · rw [hg] at h
              cases h
              exact ⟨_, hr⟩
          | some a =>
            obtain ⟨l, hl⟩ := ha a hw
            obtain ⟨g, hg, _, _, happ, _⟩ := (ha1 n hm).old a hw
            have hgx := happ x l hxf hl
            refine ⟨?_, fun a' h => ?_⟩
            · unfold held
              rw [hg, hw]
              simp [hgx, hl]
            · rw [hg] at h
              cases h
              exact ⟨_, hgx⟩
        rw [hh2 n hm x (fun g hg => hx g (List.mem_cons_of_mem _ hg)) f.tile hstep.2, hstep.1]
        simp
      · have hsame : w1.out ⟨n, t, ""⟩ = w.out ⟨n, t, ""⟩ := hk1 ⟨n, t, ""⟩ (fun m _ h => by injection h with _ h3; exact ht h3.symm)
        have : held w1 n t x = held w n t x := by
          unfold held
          rw [hsame]
        rw [hh2 n hm x (fun g hg => hx g (List.mem_cons_of_mem _ hg)) t (by rw [hsame]; exact ha), this]
        simp [ht]

/-! ### Runs with failures -/

/-- Nothing is lost: an output with a plain name stays, and its records are the beginning of the later ones -/
def Kept (w w' : World α) : Prop :=
  ∀ n t a, w.out ⟨n, t, ""⟩ = some a → ∃ g, w'.out ⟨n, t, ""⟩ = some g ∧ g.vars.map (·.1) = a.vars.map (·.1) ∧
    ∀ x r l, a.get x = some (r, l) → ∃ l', g.get x = some (r, l ++ l')

theorem Kept.refl (w : World α) : Kept w w := fun _ _ a h => ⟨a, h, rfl, fun _ _ l hx => ⟨[], by rw [hx, List.append_nil]⟩⟩

theorem Kept.trans {w1 w2 w3 : World α} (h1 : Kept w1 w2) (h2 : Kept w2 w3) : Kept w1 w3 := by
  intro n t a ha
  obtain ⟨b, hb, hn1, hx1⟩ := h1 n t a ha
  obtain ⟨c, hc, hn2, hx2⟩ := h2 n t b hb
  refine ⟨c, hc, hn2.trans hn1, fun x r l hx => ?_⟩
  obtain ⟨l1, hl1⟩ := hx1 x r l hx
  obtain ⟨l2, hl2⟩ := hx2 x r _ hl1
  exact ⟨l1 ++ l2, by rw [hl2, List.append_assoc]⟩

/-- What is known of a step that did not stop -/
structure Sound (ok : Nat → Bool) (w w' : World α) : Prop where
  more : w.calls ≤ w'.calls
  bad : w'.bad = false → w.bad = false
  good : w'.bad = false → ∀ i, w.calls ≤ i → i < w'.calls → ok i = true
  kept : w'.bad = false → Kept w w'

theorem Sound.refl (ok : Nat → Bool) (w : World α) : Sound ok w w :=
  ⟨le_rfl, id, fun _ i h1 h2 => absurd h2 (not_lt.2 h1), fun _ => Kept.refl w⟩

theorem Sound.trans {ok : Nat → Bool} {w1 w2 w3 : World α} (h1 : Sound ok w1 w2) (h2 : Sound ok w2 w3) : Sound ok w1 w3 :=
  ⟨h1.more.trans h2.more, fun h => h1.bad (h2.bad h), fun h i hi1 hi2 => by
    by_cases hc : i < w2.calls
    · exact h1.good (h2.bad h) i hi1 hc
    · exact h2.good h i (not_lt.1 hc) hi2, fun h => (h1.kept (h2.bad h)).trans (h2.kept h)⟩

theorem ncrcat_kept (a : Out α) (b : List (String × Bool × List α)) : (ncrcat a b).vars.map (·.1) = a.vars.map (·.1) ∧
    ∀ x r l, a.get x = some (r, l) → ∃ l', (ncrcat a b).get x = some (r, l ++ l') := by
  constructor
  · unfold ncrcat
    dsimp only
    rw [List.map_map]
    apply List.map_congr_left
    intro e _
    show (if e.2.1 = true then _ else e).1 = _
    by_cases he : e.2.1 = true
    · rw [if_pos he]
    · rw [if_neg he]
  · intro x r l hx
    rw [ncrcat_get, hx]
    cases r with
    | true => exact ⟨_, rfl⟩
    | false => exact ⟨[], by simp⟩

theorem write_sound {ok : Nat → Bool} {f : Input α} {time : Option String} {n : String} {vl xl : List String} {w w' : World α}
    (h : write ok f time n vl xl w = .ok w') : Sound ok w w' ∧ w'.removed = w.removed := by
  unfold write at h
  dsimp only at h
  cases hk : w.out ⟨n, f.tile, ""⟩ with
  | some a =>
    rw [hk] at h
    dsimp only at h
    by_cases ht : time = none
    · rw [if_pos ht] at h
      cases h
    · rw [if_neg ht] at h
      cases hok : ok w.calls with
      | false =>
        simp only [hok, Bool.false_eq_true, if_false] at h
        cases h
        exact ⟨⟨by dsimp only; omega, fun hb => (by cases hb), fun hb => (by cases hb), fun hb => (by cases hb)⟩, rfl⟩
      | true =>
        simp only [hok, if_true] at h
        cases hn : ncks f vl with
        | none =>
          simp only [hn] at h
          cases h
          exact ⟨⟨by dsimp only; omega, fun hb => (by cases hb), fun hb => (by cases hb), fun hb => (by cases hb)⟩, rfl⟩
        | some b =>
          simp only [hn, Option.isNone_some, Bool.or_false] at h
          cases hok2 : ok (w.calls + 1) with
          | false =>
            simp only [hok2, Bool.false_eq_true, if_false] at h
            cases h
            exact ⟨⟨by dsimp only; omega, fun hb => (by cases hb), fun hb => (by cases hb), fun hb => (by cases hb)⟩, rfl⟩
          | true =>
            simp only [hok2, if_true] at h
            cases h
            refine ⟨⟨by dsimp only; omega, id, fun _ i h1 h2 => ?_, fun _ => ?_⟩, rfl⟩
            · dsimp only at h2
              rcases (show i = w.calls ∨ i = w.calls + 1 by omega) with rfl | rfl
              · exact hok
              · exact hok2
            · intro m t a' ha'
              dsimp only
              by_cases hm : (⟨m, t, ""⟩ : Key) = ⟨n, f.tile, ""⟩
              · rw [hm] at ha' ⊢
                rw [hk] at ha'
                cases ha'
                rw [Function.update_self]
                exact ⟨_, rfl, ncrcat_kept a b⟩
              · rw [Function.update_of_ne hm]
                exact Kept.refl w m t a' ha'
  | none =>
    rw [hk] at h
    dsimp only at h
    cases hok : ok w.calls with
    | false =>
      simp only [hok, Bool.false_eq_true, if_false] at h
      cases h
      exact ⟨⟨by dsimp only; omega, fun hb => (by simp at hb), fun hb => (by simp at hb), fun hb => (by simp at hb)⟩, rfl⟩
    | true =>
      simp only [hok, if_true] at h
      cases hn : ncks f vl with
      | none =>
        simp only [hn] at h
        cases h
        exact ⟨⟨by dsimp only; omega, fun hb => (by simp at hb), fun hb => (by simp at hb), fun hb => (by simp at hb)⟩, rfl⟩
      | some b =>
        simp only [hn, Option.isNone_some, Bool.or_false] at h
        cases h
        refine ⟨⟨by dsimp only; omega, id, fun _ i h1 h2 => ?_, fun _ => ?_⟩, rfl⟩
        · dsimp only at h2
          rw [show i = w.calls by omega]
          exact hok
        · intro m t a' ha'
          dsimp only
          by_cases hm : (⟨m, t, ""⟩ : Key) = ⟨n, f.tile, f.ext⟩
          · injection hm with h1 h2 h3
            subst h1 h2
            rw [hk] at ha'
            cases ha'
          · rw [Function.update_of_ne hm]
            exact Kept.refl w m t a' ha'

theorem oneVar_sound {o : Opts} {ok : Nat → Bool} {f : Input α} {time : Option String} {s s' : Lists × World α} {n : String}
    (h : oneVar o ok f time s n = .ok s') : Sound ok s.2 s'.2 ∧ s'.2.removed = s.2.removed := by
  obtain ⟨l, w⟩ := s
  unfold oneVar at h
  dsimp only at h
  cases hh : f.head.has n with
  | false =>
    simp only [hh, Bool.not_false, if_true] at h
    cases h
    exact ⟨Sound.refl ok w, rfl⟩
  | true =>
    simp only [hh, Bool.not_true, Bool.false_eq_true, if_false] at h
    cases hm : extra o f.head time n with
    | none =>
      simp only [hm] at h
      cases h
      exact ⟨Sound.refl ok w, rfl⟩
    | some m =>
      simp only [hm] at h
      cases ho : o.onefile with
      | true =>
        simp only [ho, if_true] at h
        cases h
        exact ⟨Sound.refl ok w, rfl⟩
      | false =>
        simp only [ho, Bool.false_eq_true, if_false] at h
        revert h
        generalize hw : write ok f time n _ _ w = r
        intro h
        cases r with
        | error e => cases h
        | ok w2 =>
          cases h
          exact write_sound hw

theorem varLoop_sound {o : Opts} {ok : Nat → Bool} {f : Input α} {time : Option String} {vs : List String} {s s' : Lists × World α}
    (h : varLoop o ok f time vs s = .ok s') : Sound ok s.2 s'.2 ∧ s'.2.removed = s.2.removed := by
  induction vs generalizing s with
  | nil =>
    cases h
    exact ⟨Sound.refl ok _, rfl⟩
  | cons v vs ih =>
    unfold varLoop at h
    cases h1 : oneVar o ok f time s v with
    | error e => rw [h1] at h; cases h
    | ok s1 =>
      rw [h1] at h
      obtain ⟨a, b⟩ := oneVar_sound h1
      obtain ⟨c, d⟩ := ih h
      exact ⟨a.trans c, d.trans b⟩

theorem oneFile_sound {o : Opts} {ok : Nat → Bool} {f : Input α} {k : Nat} {s s' : List String × World α}
    (h : oneFile o ok s f k = .ok s') : Sound ok s.2 s'.2 ∧
      s'.2.removed = s.2.removed ++ if f.readable ∧ o.archive then [k] else [] := by
  unfold oneFile at h
  cases hr : f.readable with
  | false =>
    simp only [hr, Bool.not_false, if_true] at h
    cases h
    exact ⟨Sound.refl ok _, by simp⟩
  | true =>
    simp only [hr, Bool.not_true, Bool.false_eq_true, if_false] at h
    cases h1 : varLoop o ok f (if o.static = true then none else f.head.unlimited) (nextList s.1 f) (⟨coords f.head, []⟩, s.2) with
    | error e => rw [h1] at h; cases h
    | ok s1 =>
      rw [h1] at h
      cases h
      obtain ⟨a, b⟩ := varLoop_sound h1
      dsimp only at a b ⊢
      cases ha : o.archive with
      | true =>
        simp only [if_true, and_self]
        exact ⟨⟨a.more, a.bad, a.good, a.kept⟩, by rw [b]⟩
      | false =>
        simp only [Bool.false_eq_true, if_false, and_false, List.append_nil]
        exact ⟨a, b⟩

theorem fileLoop_sound {o : Opts} {ok : Nat → Bool} {fs : List (Input α)} {k : Nat} {s s' : List String × World α}
    (h : fileLoop o ok fs k s = .ok s') : Sound ok s.2 s'.2 ∧
      s'.2.removed = s.2.removed ++ if o.archive then ((fs.zipIdx k).filter fun p => p.1.readable).map (·.2) else [] := by
  induction fs generalizing s k with
  | nil =>
    cases h
    exact ⟨Sound.refl ok _, by simp⟩
  | cons f fs ih =>
    unfold fileLoop at h
    cases h1 : oneFile o ok s f k with
    | error e => rw [h1] at h; cases h
    | ok s1 =>
      rw [h1] at h
      obtain ⟨a, b⟩ := oneFile_sound h1
      obtain ⟨c, d⟩ := ih h
      refine ⟨a.trans c, ?_⟩
      rw [d, b]
      cases o.archive <;> cases hr : f.readable <;> simp [hr]

end Verif.SplitVars
