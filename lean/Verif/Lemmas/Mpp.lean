import Mathlib.Tactic.Convert
import Verif.Model.Mpp
/-
Every execution of a network agrees with one complete strict execution.
-/
namespace Verif
variable {α β σ : Type}

@[simp] theorem set1_same {γ : Type} (f : Nat → γ) (p : Nat) (v : γ) : set1 f p v p = v := by
  simp [set1]
theorem set1_ne {γ : Type} (f : Nat → γ) (p q : Nat) (v : γ) (h : q ≠ p) : set1 f p v q = f q := by
  simp [set1, h]
theorem set1_comm {γ : Type} (f : Nat → γ) (p q : Nat) (v w : γ) (h : p ≠ q) :
    set1 (set1 f p v) q w = set1 (set1 f q w) p v := by
  funext x; simp only [set1]
  by_cases h1 : x = p <;> by_cases h2 : x = q <;> simp_all
@[simp] theorem set2_same {γ : Type} (f : Nat → Nat → γ) (p q : Nat) (v : γ) :
    set2 f p q v p q = v := by simp [set2]
theorem set2_ne {γ : Type} (f : Nat → Nat → γ) (p q x y : Nat) (v : γ) (h : ¬ (x = p ∧ y = q)) :
    set2 f p q v x y = f x y := by simp only [set2, h, if_false]
theorem set2_comm {γ : Type} (f : Nat → Nat → γ) (p q p' q' : Nat) (v w : γ)
    (h : ¬ (p = p' ∧ q = q')) :
    set2 (set2 f p q v) p' q' w = set2 (set2 f p' q' w) p q v := by
  funext x y; simp only [set2]
  by_cases h1 : x = p ∧ y = q <;> by_cases h2 : x = p' ∧ y = q'
  · exact absurd ⟨h1.1.symm.trans h2.1, h1.2.symm.trans h2.2⟩ h
  · rw [if_neg h2, if_pos h1, if_pos h1]
  · rw [if_pos h2, if_neg h1, if_pos h2]
  · rw [if_neg h2, if_neg h1, if_neg h1, if_neg h2]
theorem set2_over {γ : Type} (f : Nat → Nat → γ) (p q : Nat) (v w : γ) :
    set2 (set2 f p q v) p q w = set2 f p q w := by
  funext x y; simp only [set2]; split <;> simp_all

/-- A processor has at most one possible next state. -/
theorem NStep.det {s t : Bool} {p : Nat} {N N1 N2 : Net α β} (h1 : NStep s p N N1)
    (h2 : NStep t p N N2) : N1 = N2 := by
  cases h1 <;> cases h2 <;> simp_all

/-- A possible step of one processor and a certain step of another commute. -/
theorem NStep.comm {p q : Nat} {N N1 N2 : Net α β} (hpq : p ≠ q) (h1 : NStep false p N N1)
    (h2 : NStep true q N N2) : ∃ N3, NStep true q N1 N3 ∧ NStep false p N2 N3 := by
  have hqp : q ≠ p := fun h => hpq h.symm
  cases h1 with
  | send r m k h hs =>
    cases h2 with
    | send r' m' k' h' hs' =>
      have hne : ¬ (q = p ∧ r' = r) := fun hh => hqp hh.1
      have hne' : ¬ (p = q ∧ r = r') := fun hh => hpq hh.1
      refine ⟨_, .send _ r' m' k' (by simp [set1_ne _ _ _ _ hqp, h']) ?_, ?_⟩
      · intro _; simp only [set2_ne _ _ _ _ _ _ hne]; exact hs' rfl
      · have := NStep.send (strict := false) (p := p)
          (N := ⟨set1 N.prog q k', set2 N.chan q r' (N.chan q r' ++ [m'])⟩) r m k
          (by simp [set1_ne _ _ _ _ hpq, h]) (by simp)
        simp only [set2_ne _ _ _ _ _ _ hne, set2_ne _ _ _ _ _ _ hne'] at this ⊢
        rw [set1_comm _ _ _ _ _ hpq, set2_comm _ _ _ _ _ _ _ hne']
        exact this
    | recv r' k' m' rest' h' hc' =>
      by_cases hch : r' = p ∧ q = r
      · obtain ⟨rfl, rfl⟩ := hch
        refine ⟨_, .recv _ r' k' m' (rest' ++ [m]) (by simp [set1_ne _ _ _ _ hqp, h'])
          (by simp [hc']), ?_⟩
        have := NStep.send (strict := false) (p := r')
          (N := ⟨set1 N.prog q (k' m'), set2 N.chan r' q rest'⟩) q m k
          (by simp [set1_ne _ _ _ _ hpq, h]) (by simp)
        simp only [set2_same, set2_over] at this ⊢
        rw [set1_comm _ _ _ _ _ hpq]
        exact this
      · have hch' : ¬ (p = r' ∧ r = q) := fun hh => hch ⟨hh.1.symm, hh.2.symm⟩
        refine ⟨_, .recv _ r' k' m' rest' (by simp [set1_ne _ _ _ _ hqp, h'])
          (by simp only [set2_ne _ _ _ _ _ _ hch]; exact hc'), ?_⟩
        have := NStep.send (strict := false) (p := p)
          (N := ⟨set1 N.prog q (k' m'), set2 N.chan r' q rest'⟩) r m k
          (by simp [set1_ne _ _ _ _ hpq, h]) (by simp)
        simp only [set2_ne _ _ _ _ _ _ hch'] at this ⊢
        rw [set1_comm _ _ _ _ _ hpq, set2_comm _ _ _ _ _ _ _ hch']
        exact this
    | sync k' h' hs' =>
      have hne : ∀ y, ¬ (q = p ∧ y = r) := fun y hh => hqp hh.1
      refine ⟨_, .sync _ k' (by simp [set1_ne _ _ _ _ hqp, h']) ?_, ?_⟩
      · intro _ y; simp only [set2_ne _ _ _ _ _ _ (hne y)]; exact hs' rfl y
      · have := NStep.send (strict := false) (p := p) (N := ⟨set1 N.prog q k', N.chan⟩) r m k
          (by simp [set1_ne _ _ _ _ hpq, h]) (by simp)
        simp only at this ⊢
        rw [set1_comm _ _ _ _ _ hpq]
        exact this
  | recv r k m rest h hc =>
    cases h2 with
    | send r' m' k' h' hs' =>
      by_cases hch : r = q ∧ p = r'
      · obtain ⟨rfl, rfl⟩ := hch
        have := hs' rfl
        rw [hc] at this; cases this
      · have hch' : ¬ (q = r ∧ r' = p) := fun hh => hch ⟨hh.1.symm, hh.2.symm⟩
        refine ⟨_, .send _ r' m' k' (by simp [set1_ne _ _ _ _ hqp, h']) ?_, ?_⟩
        · intro _; simp only [set2_ne _ _ _ _ _ _ hch']; exact hs' rfl
        · have := NStep.recv (strict := false) (p := p)
            (N := ⟨set1 N.prog q k', set2 N.chan q r' (N.chan q r' ++ [m'])⟩) r k m rest
            (by simp [set1_ne _ _ _ _ hpq, h])
            (by simp only [set2_ne _ _ _ _ _ _ hch]; exact hc)
          simp only [set2_ne _ _ _ _ _ _ hch'] at this ⊢
          rw [set1_comm _ _ _ _ _ hpq, set2_comm _ _ _ _ _ _ _ hch]
          exact this
    | recv r' k' m' rest' h' hc' =>
      have hne : ¬ (r' = r ∧ q = p) := fun hh => hqp hh.2
      have hne' : ¬ (r = r' ∧ p = q) := fun hh => hpq hh.2
      refine ⟨_, .recv _ r' k' m' rest' (by simp [set1_ne _ _ _ _ hqp, h'])
        (by simp only [set2_ne _ _ _ _ _ _ hne]; exact hc'), ?_⟩
      have := NStep.recv (strict := false) (p := p)
        (N := ⟨set1 N.prog q (k' m'), set2 N.chan r' q rest'⟩) r k m rest
        (by simp [set1_ne _ _ _ _ hpq, h]) (by simp only [set2_ne _ _ _ _ _ _ hne']; exact hc)
      rw [set1_comm _ _ _ _ _ hpq, set2_comm _ _ _ _ _ _ _ hne']
      exact this
    | sync k' h' hs' =>
      by_cases hrq : r = q
      · subst hrq
        have := hs' rfl p
        rw [hc] at this; cases this
      · have hne : ∀ y, ¬ (q = r ∧ y = p) := fun y hh => hrq hh.1.symm
        refine ⟨_, .sync _ k' (by simp [set1_ne _ _ _ _ hqp, h']) ?_, ?_⟩
        · intro _ y; simp only [set2_ne _ _ _ _ _ _ (hne y)]; exact hs' rfl y
        · have := NStep.recv (strict := false) (p := p) (N := ⟨set1 N.prog q k', N.chan⟩) r k m rest
            (by simp [set1_ne _ _ _ _ hpq, h]) hc
          rw [set1_comm _ _ _ _ _ hpq]
          exact this
  | sync k h hs =>
    cases h2 with
    | send r' m' k' h' hs' =>
      refine ⟨_, .send _ r' m' k' (by simp [set1_ne _ _ _ _ hqp, h']) (fun _ => hs' rfl), ?_⟩
      have := NStep.sync (strict := false) (p := p)
        (N := ⟨set1 N.prog q k', set2 N.chan q r' (N.chan q r' ++ [m'])⟩) k
        (by simp [set1_ne _ _ _ _ hpq, h]) (by simp)
      rw [set1_comm _ _ _ _ _ hpq]
      exact this
    | recv r' k' m' rest' h' hc' =>
      refine ⟨_, .recv _ r' k' m' rest' (by simp [set1_ne _ _ _ _ hqp, h']) hc', ?_⟩
      have := NStep.sync (strict := false) (p := p)
        (N := ⟨set1 N.prog q (k' m'), set2 N.chan r' q rest'⟩) k
        (by simp [set1_ne _ _ _ _ hpq, h]) (by simp)
      rw [set1_comm _ _ _ _ _ hpq]
      exact this
    | sync k' h' hs' =>
      refine ⟨_, .sync _ k' (by simp [set1_ne _ _ _ _ hqp, h']) (fun _ => hs' rfl), ?_⟩
      have := NStep.sync (strict := false) (p := p) (N := ⟨set1 N.prog q k', N.chan⟩) k
        (by simp [set1_ne _ _ _ _ hpq, h]) (by simp)
      rw [set1_comm _ _ _ _ _ hpq]
      exact this

theorem NStep.not_done {s : Bool} {p : Nat} {N N1 : Net α β} (h : NStep s p N N1) :
    ¬ N.AllDone := by
  intro hd
  obtain ⟨b, hb⟩ := hd p
  cases h <;> simp_all

/-- A possible step leads to a state that still completes to the same final state, with one step
less. -/
theorem Exec.step_shorter {n p : Nat} {N N1 F : Net α β} (h : Exec true n N F) (hF : F.AllDone)
    (h1 : NStep false p N N1) : ∃ m, n = m + 1 ∧ Exec true m N1 F := by
  induction h generalizing N1 with
  | nil N => exact absurd hF h1.not_done
  | @cons n N N' N'' q hq t ih =>
    by_cases hpq : p = q
    · subst hpq
      have := h1.det hq
      subst this
      exact ⟨_, rfl, t⟩
    · obtain ⟨N3, h3, h4⟩ := NStep.comm hpq h1 hq
      obtain ⟨m, rfl, hm⟩ := ih hF h4
      exact ⟨m + 1, rfl, .cons q h3 hm⟩

/-- Any execution, of any length, stays on the way to the final state of one complete strict
execution. -/
theorem Exec.confluent {n m : Nat} {N M F : Net α β} (hF : F.AllDone) (hs : Exec true n N F)
    (h : Exec false m N M) : ∃ r, n = m + r ∧ Exec true r M F := by
  induction h generalizing n with
  | nil N => exact ⟨n, by omega, hs⟩
  | @cons m N N' N'' q hq t ih =>
    obtain ⟨n', rfl, hs'⟩ := hs.step_shorter hF hq
    obtain ⟨r, hr, hr'⟩ := ih hs'
    exact ⟨r, by omega, hr'⟩

theorem Exec.append {s : Bool} {n m : Nat} {A B C : Net α β} (h1 : Exec s n A B)
    (h2 : Exec s m B C) : Exec s (n + m) A C := by
  induction h1 with
  | nil N => simpa using h2
  | @cons n N N' N'' q hq t ih =>
    have := Exec.cons q hq (ih h2)
    rwa [show n + 1 + m = n + m + 1 by omega]

/-- The three facts the properties use, from one complete strict execution. -/
theorem Net.outcome {n : Nat} {N F : Net α β} (hs : Exec true n N F) (hF : F.AllDone) :
    ∀ m M, Exec false m N M →
      m ≤ n ∧ (M.AllDone → M = F) ∧ (¬ M.AllDone → ∃ p M', NStep true p M M') := by
  intro m M h
  obtain ⟨r, hr, h'⟩ := Exec.confluent hF hs h
  refine ⟨by omega, ?_, ?_⟩
  · intro hd
    cases h' with
    | nil => rfl
    | cons p hp _ => exact absurd hd hp.not_done
  · intro hd
    cases h' with
    | nil => exact absurd hF hd
    | cons p hp _ => exact ⟨p, _, hp⟩

/-! ### Phases -/

/-- One processor runs its send loop. -/
theorem exec_sendLoop (sel : Nat → Bool) (m : Nat → List α) (k : Prog α β) (p : Nat) :
    ∀ (ps : List Nat) (N : Net α β), ps.Nodup → N.prog p = sendLoop sel m k ps →
      (∀ q ∈ ps, sel q = true → N.chan p q = []) →
      ∃ n, Exec true n N ⟨set1 N.prog p k,
        fun x y => if x = p ∧ y ∈ ps ∧ sel y = true then [m y] else N.chan x y⟩ := by
  intro ps
  induction ps with
  | nil =>
    intro N _ h _
    refine ⟨0, ?_⟩
    have : (⟨set1 N.prog p k,
        fun x y => if x = p ∧ y ∈ ([] : List Nat) ∧ sel y = true then [m y] else N.chan x y⟩ :
          Net α β) = N := by
      ext1
      · funext x; by_cases hx : x = p
        · subst hx; simp [h, sendLoop]
        · simp [set1_ne _ _ _ _ hx]
      · funext x y; simp
    rw [this]; exact .nil N
  | cons q ps ih =>
    intro N hnd h hc
    obtain ⟨hq, hnd'⟩ := List.nodup_cons.1 hnd
    by_cases hsel : sel q = true
    · have hcq := hc q (by simp) hsel
      simp only [sendLoop, hsel, if_true] at h
      have hstep := NStep.send (strict := true) N q (m q) (sendLoop sel m k ps) h (fun _ => hcq)
      obtain ⟨n, hn⟩ := ih ⟨set1 N.prog p (sendLoop sel m k ps),
        set2 N.chan p q (N.chan p q ++ [m q])⟩ hnd' (by simp) (by
        intro r hr hsr
        have hne : ¬ (p = p ∧ r = q) := fun hh => hq (hh.2 ▸ hr)
        simp only [set2_ne _ _ _ _ _ _ hne]
        exact hc r (by simp [hr]) hsr)
      refine ⟨n + 1, .cons p hstep ?_⟩
      convert hn using 1
      ext1
      · funext x; simp only [set1]; split <;> rfl
      · funext x y
        simp only [set2, List.mem_cons]
        by_cases hx : x = p
        · subst hx
          by_cases hy : y = q
          · subst hy; simp [hsel, hq, hcq]
          · simp [hy]
        · simp [hx]
    · simp only [sendLoop, hsel] at h
      obtain ⟨n, hn⟩ := ih N hnd' h (fun r hr => hc r (by simp [hr]))
      refine ⟨n, ?_⟩
      convert hn using 1
      ext1
      · rfl
      · funext x y
        simp only [List.mem_cons]
        by_cases hy : y = q
        · subst hy; simp [hsel]
        · simp [hy]

/-- One processor runs its receive loop. -/
theorem exec_recvLoop (sel : Nat → Bool) (use : σ → Nat → List α → σ) (loc : σ → Nat → σ)
    (k : σ → Prog α β) (m : Nat → List α) (p : Nat) :
    ∀ (ps : List Nat) (s : σ) (N : Net α β), ps.Nodup → N.prog p = recvLoop sel use loc k ps s →
      (∀ q ∈ ps, sel q = true → N.chan q p = [m q]) →
      ∃ n, Exec true n N ⟨set1 N.prog p (k (recvFold sel use loc m ps s)),
        fun x y => if y = p ∧ x ∈ ps ∧ sel x = true then [] else N.chan x y⟩ := by
  intro ps
  induction ps with
  | nil =>
    intro s N _ h _
    refine ⟨0, ?_⟩
    have : (⟨set1 N.prog p (k (recvFold sel use loc m [] s)),
        fun x y => if y = p ∧ x ∈ ([] : List Nat) ∧ sel x = true then [] else N.chan x y⟩ :
          Net α β) = N := by
      ext1
      · funext x; by_cases hx : x = p
        · subst hx; simp [h, recvLoop, recvFold]
        · simp [set1_ne _ _ _ _ hx]
      · funext x y; simp
    rw [this]; exact .nil N
  | cons q ps ih =>
    intro s N hnd h hc
    obtain ⟨hq, hnd'⟩ := List.nodup_cons.1 hnd
    by_cases hsel : sel q = true
    · have hcq := hc q (by simp) hsel
      simp only [recvLoop, hsel, if_true] at h
      have hstep := NStep.recv (strict := true) N q _ (m q) [] h hcq
      obtain ⟨n, hn⟩ := ih (use s q (m q)) ⟨set1 N.prog p (recvLoop sel use loc k ps
        (use s q (m q))), set2 N.chan q p []⟩ hnd' (by simp) (by
        intro r hr hsr
        have hne : ¬ (r = q ∧ p = p) := fun hh => hq (hh.1 ▸ hr)
        simp only [set2_ne _ _ _ _ _ _ hne]
        exact hc r (by simp [hr]) hsr)
      refine ⟨n + 1, .cons p hstep ?_⟩
      convert hn using 1
      ext1
      · funext x; simp only [set1, recvFold, List.foldl_cons, hsel, if_true]; split <;> rfl
      · funext x y
        simp only [set2, List.mem_cons]
        by_cases hy : y = p
        · subst hy
          by_cases hx : x = q
          · subst hx; simp [hsel]
          · simp [hx]
        · simp [hy]
    · simp only [recvLoop, hsel] at h
      obtain ⟨n, hn⟩ := ih (loc s q) N hnd' h (fun r hr => hc r (by simp [hr]))
      refine ⟨n, ?_⟩
      convert hn using 1
      ext1
      · funext x; simp only [set1, recvFold, List.foldl_cons, hsel]; split <;> rfl
      · funext x y
        simp only [List.mem_cons]
        by_cases hx : x = q
        · subst hx; simp [hsel]
        · simp [hx]

/-- All processors run their send loops, starting from empty queues. -/
theorem phase_send (n : Nat) (sel : Nat → Nat → Bool) (m : Nat → Nat → List α)
    (k : Nat → Prog α β) (N : Net α β)
    (hp : ∀ p, p < n → N.prog p = sendLoop (sel p) (m p) (k p) (List.range n))
    (hc : ∀ x y, N.chan x y = []) :
    ∃ l, Exec true l N ⟨fun p => if p < n then k p else N.prog p,
      fun x y => if x < n ∧ y < n ∧ sel x y = true then [m x y] else []⟩ := by
  suffices h : ∀ a, a ≤ n → ∃ l, Exec true l N ⟨fun p => if p < a then k p else N.prog p,
      fun x y => if x < a ∧ y < n ∧ sel x y = true then [m x y] else []⟩ from h n (Nat.le_refl n)
  intro a
  induction a with
  | zero =>
    intro _
    refine ⟨0, ?_⟩
    have : (⟨fun p => if p < 0 then k p else N.prog p,
      fun x y => if x < 0 ∧ y < n ∧ sel x y = true then [m x y] else []⟩ : Net α β) = N := by
      ext1
      · funext p; simp
      · funext x y; simp [hc]
    rw [this]; exact .nil N
  | succ a ih =>
    intro ha
    obtain ⟨l, hl⟩ := ih (by omega)
    obtain ⟨l', hl'⟩ := exec_sendLoop (sel a) (m a) (k a) a (List.range n)
      ⟨fun p => if p < a then k p else N.prog p,
        fun x y => if x < a ∧ y < n ∧ sel x y = true then [m x y] else []⟩ List.nodup_range
      (by simp [hp a (by omega)]) (by simp)
    refine ⟨l + l', hl.append ?_⟩
    convert hl' using 1
    ext1
    · funext p
      simp only [set1]
      by_cases h1 : p = a
      · subst h1; simp
      · by_cases h2 : p < a
        · simp [h1, h2, show p < a + 1 by omega]
        · simp [h1, h2, show ¬ p < a + 1 by omega]
    · funext x y
      simp only [List.mem_range]
      by_cases h1 : x = a
      · subst h1; simp
      · by_cases h2 : x < a
        · simp [h1, h2, show x < a + 1 by omega]
        · simp [h1, h2, show ¬ x < a + 1 by omega]

/-- All processors run their receive loops; afterwards all queues are empty. -/
theorem phase_recv (n : Nat) (sel : Nat → Nat → Bool) (use : Nat → σ → Nat → List α → σ)
    (loc : Nat → σ → Nat → σ) (k : Nat → σ → Prog α β) (s0 : Nat → σ) (m : Nat → Nat → List α)
    (N : Net α β)
    (hp : ∀ p, p < n → N.prog p = recvLoop (sel p) (use p) (loc p) (k p) (List.range n) (s0 p))
    (hc : ∀ x y, N.chan x y = if x < n ∧ y < n ∧ sel y x = true then [m x y] else []) :
    ∃ l, Exec true l N ⟨fun p => if p < n then
        k p (recvFold (sel p) (use p) (loc p) (fun q => m q p) (List.range n) (s0 p))
        else N.prog p, fun _ _ => []⟩ := by
  suffices h : ∀ a, a ≤ n → ∃ l, Exec true l N ⟨fun p => if p < a then
        k p (recvFold (sel p) (use p) (loc p) (fun q => m q p) (List.range n) (s0 p))
        else N.prog p, fun x y => if x < n ∧ y < n ∧ a ≤ y ∧ sel y x = true then [m x y] else []⟩ by
    obtain ⟨l, hl⟩ := h n (Nat.le_refl n)
    refine ⟨l, ?_⟩
    convert hl using 1
    ext1
    · rfl
    · funext x y
      simp only
      rw [if_neg (by omega)]
  intro a
  induction a with
  | zero =>
    intro _
    refine ⟨0, ?_⟩
    have : (⟨fun p => if p < 0 then
        k p (recvFold (sel p) (use p) (loc p) (fun q => m q p) (List.range n) (s0 p))
        else N.prog p, fun x y => if x < n ∧ y < n ∧ 0 ≤ y ∧ sel y x = true then [m x y] else []⟩ :
          Net α β) = N := by
      ext1
      · funext p; simp
      · funext x y; simp [hc]
    rw [this]; exact .nil N
  | succ a ih =>
    intro ha
    obtain ⟨l, hl⟩ := ih (by omega)
    obtain ⟨l', hl'⟩ := exec_recvLoop (sel a) (use a) (loc a) (k a) (fun q => m q a) a
      (List.range n) (s0 a) ⟨fun p => if p < a then
        k p (recvFold (sel p) (use p) (loc p) (fun q => m q p) (List.range n) (s0 p))
        else N.prog p, fun x y => if x < n ∧ y < n ∧ a ≤ y ∧ sel y x = true then [m x y] else []⟩
      List.nodup_range (by simp [hp a (by omega)]) (by
        intro q hq hs
        have hq' : q < n := by simpa using hq
        simp [hq', hs, show a < n by omega])
    refine ⟨l + l', hl.append ?_⟩
    convert hl' using 1
    ext1
    · funext p
      simp only [set1]
      by_cases h1 : p = a
      · subst h1; simp
      · by_cases h2 : p < a
        · simp [h1, h2, show p < a + 1 by omega]
        · simp [h1, h2, show ¬ p < a + 1 by omega]
    · funext x y
      simp only [List.mem_range]
      by_cases h1 : y = a
      · subst h1; by_cases h3 : x < n <;> by_cases h4 : sel y x = true <;> simp [h3, h4]
      · by_cases h2 : a < y
        · simp [h1, show a + 1 ≤ y by omega, show a ≤ y by omega]
        · simp [h1, show ¬ a + 1 ≤ y by omega, show ¬ a ≤ y by omega]

/-- All processors pass `mpp_sync_self` when the queues are empty. -/
theorem phase_sync (n : Nat) (k : Nat → Prog α β) (N : Net α β)
    (hp : ∀ p, p < n → N.prog p = .sync (k p)) (hc : ∀ x y, N.chan x y = []) :
    ∃ l, Exec true l N ⟨fun p => if p < n then k p else N.prog p, N.chan⟩ := by
  suffices h : ∀ a, a ≤ n → ∃ l, Exec true l N ⟨fun p => if p < a then k p else N.prog p, N.chan⟩
    from h n (Nat.le_refl n)
  intro a
  induction a with
  | zero =>
    intro _
    refine ⟨0, ?_⟩
    have : (⟨fun p => if p < 0 then k p else N.prog p, N.chan⟩ : Net α β) = N := by
      ext1
      · funext p; simp
      · rfl
    rw [this]; exact .nil N
  | succ a ih =>
    intro ha
    obtain ⟨l, hl⟩ := ih (by omega)
    have hstep := NStep.sync (strict := true) (p := a)
      (⟨fun p => if p < a then k p else N.prog p, N.chan⟩ : Net α β) (k a)
      (by simp [hp a (by omega)]) (fun _ q => hc a q)
    refine ⟨l + (0 + 1), hl.append (.cons a hstep ?_)⟩
    convert Exec.nil _ using 1
    ext1
    · funext p
      simp only [set1]
      by_cases h1 : p = a
      · subst h1; simp
      · by_cases h2 : p < a
        · simp [h1, h2, show p < a + 1 by omega]
        · simp [h1, h2, show ¬ p < a + 1 by omega]
    · rfl

end Verif
