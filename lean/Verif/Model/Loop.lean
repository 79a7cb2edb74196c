/-
C `for` loops as structural recursion, used by all models.
-/
namespace Verif

/-- `for (k = start; k < start + cnt; k++) st = f(k, st)` where the body may stop the program with
an error (`mpp_error`, `exit`, undefined behaviour). -/
def forLoop {ε σ : Type} (f : Nat → σ → Except ε σ) : Nat → Nat → σ → Except ε σ
  | _, 0, st => .ok st
  | k, n + 1, st =>
    match f k st with
    | .error e => .error e
    | .ok st' => forLoop f (k + 1) n st'

/-- `for (k = start; k < start + cnt; k++) st = f(k, st)` with a body that cannot fail. -/
def forPure {σ : Type} (f : Nat → σ → σ) : Nat → Nat → σ → σ
  | _, 0, st => st
  | k, n + 1, st => forPure f (k + 1) n (f k st)

/-- Invariant rule for `forLoop`: the loop runs to its end and the invariant holds there. -/
theorem forLoop_inv {ε σ : Type} {f : Nat → σ → Except ε σ} (I : Nat → σ → Prop) :
    ∀ (n s0 : Nat) (st : σ), I s0 st →
      (∀ k st, s0 ≤ k → k < s0 + n → I k st → ∃ st', f k st = .ok st' ∧ I (k + 1) st') →
      ∃ st', forLoop f s0 n st = .ok st' ∧ I (s0 + n) st' := by
  intro n
  induction n with
  | zero => intro s0 st h _; exact ⟨st, rfl, h⟩
  | succ n ih =>
    intro s0 st h hs
    obtain ⟨st1, h1, h2⟩ := hs s0 st (Nat.le_refl _) (by omega) h
    obtain ⟨st2, h3, h4⟩ := ih (s0 + 1) st1 h2 (fun k st hk hk' hI => hs k st (by omega) (by omega) hI)
    refine ⟨st2, ?_, ?_⟩
    · simp [forLoop, h1, h3]
    · have : s0 + (n + 1) = s0 + 1 + n := by omega
      rw [this]; exact h4

/-- Partial-correctness rule: if the loop succeeds the invariant holds at the end. -/
theorem forLoop_inv_of_ok {ε σ : Type} {f : Nat → σ → Except ε σ} (I : Nat → σ → Prop) :
    ∀ (n s0 : Nat) (st st' : σ), I s0 st →
      (∀ k st st', s0 ≤ k → k < s0 + n → I k st → f k st = .ok st' → I (k + 1) st') →
      forLoop f s0 n st = .ok st' → I (s0 + n) st' := by
  intro n
  induction n with
  | zero => intro s0 st st' h _ he; simp [forLoop] at he; subst he; exact h
  | succ n ih =>
    intro s0 st st' h hs he
    simp only [forLoop] at he
    split at he
    · cases he
    · rename_i st1 h1
      have := ih (s0 + 1) st1 st' (hs s0 st st1 (Nat.le_refl _) (by omega) h h1)
        (fun k st st' hk hk' hI => hs k st st' (by omega) (by omega) hI) he
      have e : s0 + (n + 1) = s0 + 1 + n := by omega
      rw [e]; exact this

/-- Invariant rule for `forPure`. -/
theorem forPure_inv {σ : Type} {f : Nat → σ → σ} (I : Nat → σ → Prop) :
    ∀ (n s0 : Nat) (st : σ), I s0 st →
      (∀ k st, s0 ≤ k → k < s0 + n → I k st → I (k + 1) (f k st)) →
      I (s0 + n) (forPure f s0 n st) := by
  intro n
  induction n with
  | zero => intro s0 st h _; exact h
  | succ n ih =>
    intro s0 st h hs
    have := ih (s0 + 1) (f s0 st) (hs s0 st (Nat.le_refl _) (by omega) h)
      (fun k st hk hk' hI => hs k st (by omega) (by omega) hI)
    have e : s0 + (n + 1) = s0 + 1 + n := by omega
    rw [e]; exact this

theorem forLoop_append {ε σ : Type} (f : Nat → σ → Except ε σ) :
    ∀ (n m s0 : Nat) (st : σ),
      forLoop f s0 (n + m) st = (forLoop f s0 n st).bind (fun st' => forLoop f (s0 + n) m st') := by
  intro n
  induction n with
  | zero => intro m s0 st; simp [forLoop, Except.bind]
  | succ n ih =>
    intro m s0 st
    have e : n + 1 + m = (n + m) + 1 := by omega
    rw [e]
    simp only [forLoop]
    cases h : f s0 st with
    | error e => simp [Except.bind]
    | ok st1 =>
      simp only []
      rw [ih]
      have e2 : s0 + 1 + n = s0 + (n + 1) := by omega
      rw [e2]

theorem forPure_append {σ : Type} (f : Nat → σ → σ) :
    ∀ (n m s0 : Nat) (st : σ),
      forPure f s0 (n + m) st = forPure f (s0 + n) m (forPure f s0 n st) := by
  intro n
  induction n with
  | zero => intro m s0 st; simp [forPure]
  | succ n ih =>
    intro m s0 st
    have e : n + 1 + m = (n + m) + 1 := by omega
    rw [e]; simp only [forPure]; rw [ih]
    have e2 : s0 + 1 + n = s0 + (n + 1) := by omega
    rw [e2]

end Verif
