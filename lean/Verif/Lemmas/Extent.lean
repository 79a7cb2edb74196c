import Verif.Model.Extent
import Verif.Spec.Partition
import Mathlib.Tactic.Linarith
import Mathlib.Tactic.Ring
/-
Helper lemmas for the one-dimensional decomposition. The result of the loop is described by its cut
points `P 0 = isg < P 1 < ... < P n = ieg + 1`; division `j` is `P j .. P (j+1) - 1`.
-/
namespace Verif

theorem ceilDiv_bounds (a b : Int) (hb : 0 < b) :
    a ≤ b * ceilDiv a b ∧ b * ceilDiv a b < a + b := by
  unfold ceilDiv
  have h1 := Int.mul_ediv_self_le (x := -a) (k := b) (by omega)
  have h2 := Int.lt_mul_ediv_self_add (x := -a) (k := b) hb
  constructor <;> linarith [Int.mul_neg b (-a / b)]

theorem ceilDiv_pos (a b : Int) (hb : 0 < b) (ha : 0 < a) : 1 ≤ ceilDiv a b := by
  have h := (ceilDiv_bounds a b hb).1
  by_contra hc
  have : ceilDiv a b ≤ 0 := by omega
  nlinarith

/-- With `q*b ≤ a ≤ (q+1)*b` the rounded-up quotient is `q` or `q+1`. -/
theorem ceilDiv_between (a b q : Int) (hb : 0 < b) (h1 : q * b - b < a) (h2 : a ≤ (q + 1) * b) :
    q ≤ ceilDiv a b ∧ ceilDiv a b ≤ q + 1 := by
  have ⟨h3, h4⟩ := ceilDiv_bounds a b hb
  constructor
  · by_contra hc
    have : ceilDiv a b ≤ q - 1 := by omega
    have : b * ceilDiv a b ≤ b * (q - 1) := Int.mul_le_mul_of_nonneg_left this (by omega)
    linarith [Int.mul_comm b q, Int.mul_sub b q 1]
  · by_contra hc
    have : q + 2 ≤ ceilDiv a b := by omega
    have : b * (q + 2) ≤ b * ceilDiv a b := Int.mul_le_mul_of_nonneg_left this (by omega)
    linarith [Int.mul_comm b q, Int.mul_add b q 2, Int.add_mul q 1 b]

/-- If the quotient is `q+1` then `a` exceeds `q*b`. -/
theorem ceilDiv_eq_succ (a b q : Int) (hb : 0 < b) (h : ceilDiv a b = q + 1) : q * b < a := by
  have ⟨_, h4⟩ := ceilDiv_bounds a b hb
  rw [h] at h4
  linarith [Int.mul_comm b q, Int.mul_add b q 1]

@[simp] theorem setTab_self {α : Type} (t : Nat → Option α) (k : Nat) (v : α) :
    setTab t k v k = some v := by simp [setTab]

theorem setTab_ne {α : Type} (t : Nat → Option α) (k j : Nat) (v : α) (h : j ≠ k) :
    setTab t k v j = t j := by simp [setTab, h]

theorem readTab_ok {α : Type} (t : Nat → Option α) (g : Nat → α) :
    ∀ n, (∀ j, j < n → t j = some (g j)) → readTab t n = .ok ((List.range n).map g) := by
  intro n
  induction n with
  | zero => intro _; rfl
  | succ n ih =>
    intro h
    simp only [readTab, ih (fun j hj => h j (by omega)), h n (by omega)]
    simp [List.range_succ]

/-- Cut points of a decomposition with the balance bounds `q - lo ≤ size ≤ q + 1`. -/
structure Cuts (isg ieg : Int) (n : Nat) (qlo qhi : Int) (P : Nat → Int) : Prop where
  first : P 0 = isg
  last : P n = ieg + 1
  mono : ∀ j, j < n → P j < P (j + 1)
  lo : ∀ j, j < n → qlo ≤ P (j + 1) - P j
  hi : ∀ j, j < n → P (j + 1) - P j ≤ qhi

/-- The list of divisions given by cut points. -/
def cutList (n : Nat) (P : Nat → Int) : List (Int × Int) :=
  (List.range n).map (fun j => (P j, P (j + 1) - 1))

/-! ### The loop without symmetry -/

structure InvP (isg ieg : Int) (n : Nat) (q : Int) (k : Nat) (st : ExtSt) (p : Nat → Int) :
    Prop where
  is_eq : st.is = p k
  imax_eq : st.imax = ieg
  ndmax_eq : st.ndmax = n
  first : p 0 = isg
  step : ∀ j, j < k → p j < p (j + 1) ∧ q ≤ p (j + 1) - p j ∧ p (j + 1) - p j ≤ q + 1
  tab : ∀ j, j < k → st.tab j = some (p j, p (j + 1) - 1)
  lo : q * (n - k) ≤ ieg - p k + 1
  hi : ieg - p k + 1 ≤ (q + 1) * (n - k)

theorem extStep_plain (isg ieg : Int) (n : Nat) (q : Int) (hq : 1 ≤ q) (k : Nat) (hk : k < n)
    (st : ExtSt) (h : ∃ p, InvP isg ieg n q k st p) :
    ∃ st', extStep false isg ieg n k st = .ok st' ∧ ∃ p, InvP isg ieg n q (k + 1) st' p := by
  obtain ⟨p, h⟩ := h
  have hD : (0 : Int) < n - k := by omega
  have e : extStep false isg ieg n k st =
      (let ie := st.is + ceilDiv (st.imax - st.is + 1) (st.ndmax - k) - 1
       if ie < st.is then .error .notPositive
       else if k + 1 = n ∧ ie ≠ ieg then .error .notSpan
       else .ok { is := ie + 1, imax := st.imax, ndmax := st.ndmax,
                  tab := setTab st.tab k (st.is, ie) }) := by
    unfold extStep; simp
  rw [e]
  simp only [h.is_eq, h.imax_eq, h.ndmax_eq]
  generalize hc : ceilDiv (ieg - p k + 1) (n - k) = c
  have hb := ceilDiv_bounds (ieg - p k + 1) (n - k) hD
  have hbt := ceilDiv_between (ieg - p k + 1) (n - k) q hD (by have := h.lo; omega) h.hi
  have hsu := ceilDiv_eq_succ (ieg - p k + 1) (n - k) q hD
  rw [hc] at hb hbt hsu
  have hlast : k + 1 = n → p k + c - 1 = ieg := by
    intro hl
    have : (n : Int) - k = 1 := by omega
    rw [this] at hb; omega
  rw [if_neg (by omega), if_neg (by intro hh; exact hh.2 (hlast hh.1))]
  have hlo := h.lo
  have hhi := h.hi
  have lin1 : q * ((n : Int) - ((k : Nat) + 1 : Nat)) = q * (n - k) - q := by push_cast; ring
  have lin2 : (q + 1) * ((n : Int) - ((k : Nat) + 1 : Nat)) = (q + 1) * (n - k) - (q + 1) := by
    push_cast; ring
  refine ⟨_, rfl, fun j => if j = k + 1 then p k + c else p j, ?_⟩
  constructor
  · simp
  · rfl
  · rfl
  · simp; exact h.first
  · intro j hj
    by_cases hjk : j = k
    · subst hjk; simp; omega
    · have := h.step j (by omega)
      simp only [show ¬ (j = k + 1) by omega, show ¬ (j + 1 = k + 1) by omega, if_false]
      exact this
  · intro j hj
    by_cases hjk : j = k
    · subst hjk; simp
    · simp only [show ¬ (j = k + 1) by omega, show ¬ (j + 1 = k + 1) by omega, if_false]
      rw [setTab_ne _ _ _ _ hjk]; exact h.tab j (by omega)
  · simp only [if_true]; rw [lin1]
    rcases (show c = q ∨ c = q + 1 by omega) with h1 | h1
    · omega
    · have := hsu h1; omega
  · simp only [if_true]; rw [lin2]
    rcases (show c = q ∨ c = q + 1 by omega) with h1 | h1
    · rw [h1] at hb
      have e1 : (↑n - ↑k) * q = q * ((n : Int) - k) := Int.mul_comm _ _
      have e2 : (q + 1) * ((n : Int) - k) = q * (n - k) + (n - k) := by ring
      omega
    · omega

theorem extLoop_plain (isg ieg : Int) (n : Nat) (q : Int) (hn : 1 ≤ n) (hq : 1 ≤ q)
    (hlo : q * n ≤ ieg - isg + 1) (hhi : ieg - isg + 1 ≤ (q + 1) * n)
    (hs : symmetrize (ieg - isg + 1) n = false) :
    ∃ P, extLoop isg ieg n = .ok (cutList n P) ∧ Cuts isg ieg n q (q + 1) P := by
  have h0 : ∃ p, InvP isg ieg n q 0
      { is := isg, imax := ieg, ndmax := n, tab := fun _ => none } p := by
    refine ⟨fun _ => isg, ?_⟩
    constructor <;> simp <;> omega
  obtain ⟨st, hst, p, hp⟩ := forLoop_inv (f := extStep false isg ieg n)
    (fun k st => ∃ p, InvP isg ieg n q k st p) n 0 _ h0
    (fun k st _ hk hI => extStep_plain isg ieg n q hq k (by omega) st hI)
  have hr := readTab_ok st.tab (fun j => (p j, p (j + 1) - 1)) n
    (fun j hj => hp.tab j (by omega))
  refine ⟨p, ?_, ?_⟩
  · unfold extLoop; rw [hs]; simp only [hst]; exact hr
  · have h1 := hp.lo
    have h2 := hp.hi
    simp at h1 h2
    exact ⟨hp.first, by omega, fun j hj => (hp.step j (by omega)).1,
      fun j hj => (hp.step j (by omega)).2.1, fun j hj => (hp.step j (by omega)).2.2⟩

/-! ### The loop with symmetry: bottom half -/

structure InvS (isg ieg : Int) (n : Nat) (q : Int) (k : Nat) (st : ExtSt) (p : Nat → Int) :
    Prop where
  is_eq : st.is = p k
  imax_eq : st.imax = isg + ieg - p k
  ndmax_eq : st.ndmax = n - k
  first : p 0 = isg
  step : ∀ j, j < k → p j < p (j + 1) ∧ q ≤ p (j + 1) - p j ∧ p (j + 1) - p j ≤ q + 1
  tab : ∀ j, j < k → st.tab j = some (p j, p (j + 1) - 1)
  mtab : ∀ j, j < k → st.tab (n - 1 - j) = some (isg + ieg + 1 - p (j + 1), isg + ieg - p j)
  lo : q * (n - 2 * k) - 1 ≤ isg + ieg - 2 * p k + 1
  hi : isg + ieg - 2 * p k + 1 ≤ (q + 1) * (n - 2 * k)
  ge : (n : Int) - 2 * k ≤ isg + ieg - 2 * p k + 1

theorem extStep_sym (isg ieg : Int) (n : Nat) (q : Int) (hq : 1 ≤ q)
    (hpar : (ieg - isg + 1) % 2 = (n : Int) % 2 ∨ ((n : Int) % 2 = 1 ∧ 2 ≤ q))
    (k : Nat) (hk : 2 * k + 2 ≤ n)
    (st : ExtSt) (h : ∃ p, InvS isg ieg n q k st p) :
    ∃ st', extStep true isg ieg n k st = .ok st' ∧ ∃ p, InvS isg ieg n q (k + 1) st' p := by
  obtain ⟨p, h⟩ := h
  have hD : (2 : Int) ≤ n - 2 * k := by omega
  generalize hDD : (n : Int) - 2 * k = D at hD
  generalize hRR : isg + ieg - 2 * p k + 1 = R
  have hlo := h.lo; have hhi := h.hi; have hge := h.ge
  rw [hDD, hRR] at hlo hhi hge
  have hc1 := ceilDiv_pos R D (by omega) (by omega)
  have hb := ceilDiv_bounds R D (by omega)
  have hbt := ceilDiv_between R D q (by omega) (by omega) hhi
  have hsu := ceilDiv_eq_succ R D q (by omega)
  generalize hc : ceilDiv R D = c at hc1 hb hbt hsu
  -- two divisions of size c fit, and enough points remain
  have hfit : R - 2 * c ≥ D - 2 := by
    rcases hpar with hp | ⟨hp, hq2⟩
    · -- same parity
      obtain ⟨t, ht⟩ : ∃ t, R = D + 2 * t := ⟨(R - D) / 2, by omega⟩
      have ht0 : 0 ≤ t := by omega
      have : c ≤ 1 + t := by
        by_contra hcc
        have h3 : t + 2 ≤ c := by omega
        have h4 : D * (t + 2) ≤ D * c := Int.mul_le_mul_of_nonneg_left h3 (by omega)
        have h5 : 2 * t ≤ D * t := Int.mul_le_mul_of_nonneg_right hD ht0
        have h6 : D * (t + 2) = D * t + 2 * D := by ring
        omega
      omega
    · have h3 : (q - 2) * D ≥ 0 := Int.mul_nonneg (by omega) (by omega)
      have h4 : q * D = (q - 2) * D + 2 * D := by ring
      -- D is odd, at least 3
      have hD3 : 3 ≤ D := by omega
      rcases (show c = q ∨ c = q + 1 by omega) with h1 | h1
      · -- c = q
        have h7 : (q - 2) * 3 ≤ (q - 2) * D := Int.mul_le_mul_of_nonneg_left hD3 (by omega)
        rw [h1]; omega
      · have h5 := hsu h1
        have h7 : (q - 2) * 3 ≤ (q - 2) * D := Int.mul_le_mul_of_nonneg_left hD3 (by omega)
        rw [h1]; omega
  have hmir : n - 1 - k > k := by omega
  have hbot : k < (n - 1) / 2 + 1 := by omega
  have e : extStep true isg ieg n k st =
      .ok { is := p k + c, imax := isg + ieg - (p k + c), ndmax := n - k - 1,
            tab := setTab (setTab st.tab (n - 1 - k) (isg + ieg + 1 - (p k + c), isg + ieg - p k))
              k (p k, p k + c - 1) } := by
    unfold extStep
    have e1 : st.imax - p k + 1 = R := by rw [h.imax_eq]; omega
    have e2 : st.ndmax - (k : Int) = D := by rw [h.ndmax_eq]; omega
    simp only [h.is_eq, hbot, if_true, e1, e2, hc, hmir, and_self]
    have e3 : max (isg + ieg - (p k + c - 1)) (p k + c - 1 + 1) = isg + ieg + 1 - (p k + c) := by
      rw [Int.max_def]; split <;> omega
    have e4 : max (isg + ieg - p k) (p k + c - 1 + 1) = isg + ieg - p k := by
      rw [Int.max_def]; split <;> omega
    rw [e3, e4, if_neg (by omega), if_neg (by omega), h.ndmax_eq]
    congr 2
    · omega
    · omega
  refine ⟨_, e, fun j => if j = k + 1 then p k + c else p j, ?_⟩
  have lin1 : q * ((n : Int) - 2 * ((k + 1 : Nat) : Int)) = q * D - 2 * q := by
    rw [← hDD]; push_cast; ring
  have lin2 : (q + 1) * ((n : Int) - 2 * ((k + 1 : Nat) : Int)) = (q + 1) * D - 2 * (q + 1) := by
    rw [← hDD]; push_cast; ring
  constructor
  · simp
  · simp
  · simp; omega
  · simp; exact h.first
  · intro j hj
    by_cases hjk : j = k
    · subst hjk; simp; omega
    · simp only [show ¬ (j = k + 1) by omega, show ¬ (j + 1 = k + 1) by omega, if_false]
      exact h.step j (by omega)
  · intro j hj
    by_cases hjk : j = k
    · subst hjk; simp
    · simp only [show ¬ (j = k + 1) by omega, show ¬ (j + 1 = k + 1) by omega, if_false]
      have hne : j ≠ n - 1 - k := by omega
      simp only [setTab_ne _ _ _ _ hjk, setTab_ne _ _ _ _ hne]; exact h.tab j (by omega)
  · intro j hj
    by_cases hjk : j = k
    · subst hjk
      have hne : n - 1 - j ≠ j := by omega
      simp only [setTab_ne _ _ _ _ hne]; simp
    · simp only [show ¬ (j = k + 1) by omega, show ¬ (j + 1 = k + 1) by omega, if_false]
      have hne : n - 1 - j ≠ k := by omega
      have hne2 : n - 1 - j ≠ n - 1 - k := by omega
      simp only [setTab_ne _ _ _ _ hne, setTab_ne _ _ _ _ hne2]; exact h.mtab j (by omega)
  · simp only [if_true]; rw [lin1]
    rcases (show c = q ∨ c = q + 1 by omega) with h1 | h1
    · omega
    · have := hsu h1; omega
  · simp only [if_true]; rw [lin2]
    rcases (show c = q ∨ c = q + 1 by omega) with h1 | h1
    · rw [h1] at hb
      have e1 : D * q = q * D := Int.mul_comm _ _
      have e2 : (q + 1) * D = q * D + D := by ring
      omega
    · omega
  · simp only [if_true]; push_cast; omega

/-- Once every entry of the table is known, the top half of the symmetric loop leaves it as it is. -/
theorem extStep_top (isg ieg : Int) (n : Nat) (P : Nat → Int) (hlast : P n = ieg + 1)
    (hmono : ∀ j, j < n → P j < P (j + 1)) (k : Nat) (hk : k < n) (hk2 : (n - 1) / 2 + 1 ≤ k)
    (st : ExtSt) (h : ∀ j, j < n → st.tab j = some (P j, P (j + 1) - 1)) :
    ∃ st', extStep true isg ieg n k st = .ok st' ∧
      ∀ j, j < n → st'.tab j = some (P j, P (j + 1) - 1) := by
  have hm := hmono k hk
  have e : extStep true isg ieg n k st =
      .ok { is := P (k + 1) - 1 + 1, imax := st.imax, ndmax := st.ndmax,
            tab := setTab st.tab k (P k, P (k + 1) - 1) } := by
    unfold extStep
    simp only [if_neg (show ¬ k < (n - 1) / 2 + 1 by omega), if_true, h k hk]
    rw [if_neg (by omega), if_neg]
    intro hh
    apply hh.2
    rw [hh.1, hlast]; omega
  refine ⟨_, e, ?_⟩
  intro j hj
  by_cases hjk : j = k
  · subst hjk; simp
  · simp only [setTab_ne _ _ _ _ hjk]; exact h j hj

theorem extLoop_sym (isg ieg : Int) (n : Nat) (q : Int) (hn : 1 ≤ n) (hq : 1 ≤ q)
    (hlo : q * n ≤ ieg - isg + 1) (hhi : ieg - isg + 1 ≤ (q + 1) * n)
    (hpar : (ieg - isg + 1) % 2 = (n : Int) % 2 ∨ ((n : Int) % 2 = 1 ∧ 2 ≤ q))
    (hs : symmetrize (ieg - isg + 1) n = true) :
    ∃ P, extLoop isg ieg n = .ok (cutList n P) ∧ Cuts isg ieg n (max 1 (q - 1)) (q + 1) P ∧
      ∀ j, j ≤ n → P (n - j) = isg + ieg + 1 - P j := by
  have hqn : (n : Int) ≤ q * n := by nlinarith
  have h0 : ∃ p, InvS isg ieg n q 0
      { is := isg, imax := ieg, ndmax := n, tab := fun _ => none } p := by
    refine ⟨fun _ => isg, ?_⟩
    constructor <;> simp <;> omega
  -- bottom half
  obtain ⟨st, hst, p, hp⟩ := forLoop_inv (f := extStep true isg ieg n)
    (fun k st => ∃ p, InvS isg ieg n q k st p) (n / 2) 0 _ h0
    (fun k st _ hk hI => extStep_sym isg ieg n q hq hpar k (by omega) st hI)
  simp only [Nat.zero_add] at hp
  let h := n / 2
  let P : Nat → Int := fun j => if j ≤ h then p j else isg + ieg + 1 - p (n - j)
  -- after the bottom half (and the middle division when n is odd) the table is complete
  have hmid : ∃ st1, forLoop (extStep true isg ieg n) 0 ((n + 1) / 2)
        { is := isg, imax := ieg, ndmax := n, tab := fun _ => none } = .ok st1 ∧
      (∀ j, j < n → st1.tab j = some (P j, P (j + 1) - 1)) ∧
      Cuts isg ieg n (max 1 (q - 1)) (q + 1) P ∧
      ∀ j, j ≤ n → P (n - j) = isg + ieg + 1 - P j := by
    have hstep := hp.step
    have htab := hp.tab
    have hmtab := hp.mtab
    have hlo' := hp.lo; have hhi' := hp.hi; have hge' := hp.ge
    rcases Nat.mod_two_eq_zero_or_one n with hev | hod
    · -- even
      have hn2 : (n : Int) - 2 * ((n / 2 : Nat) : Int) = 0 := by omega
      rw [hn2] at hlo' hhi' hge'
      have hpmid : isg + ieg + 1 = 2 * p (n / 2) := by omega
      refine ⟨st, ?_, ?_, ?_, ?_⟩
      · rw [show (n + 1) / 2 = n / 2 by omega]; exact hst
      · intro j hj
        by_cases hjh : j < n / 2
        · rw [htab j hjh]
          simp [P, h, show j ≤ n / 2 by omega, show j + 1 ≤ n / 2 by omega]
        · have := hmtab (n - 1 - j) (by omega)
          rw [show n - 1 - (n - 1 - j) = j by omega, show n - 1 - j + 1 = n - j by omega] at this
          rw [this]
          by_cases hjh2 : j = n / 2
          · simp only [P, h, hjh2, show ¬ (n / 2 + 1 ≤ n / 2) by omega, if_false, Nat.le_refl,
              if_true, show n - n / 2 = n / 2 by omega,
              show n - (n / 2 + 1) = n - 1 - n / 2 by omega]
            congr 1; apply Prod.ext <;> simp <;> omega
          · simp only [P, h, show ¬ (j ≤ n / 2) by omega, show ¬ (j + 1 ≤ n / 2) by omega,
              if_false, show n - (j + 1) = n - 1 - j by omega]
            congr 1; apply Prod.ext <;> simp <;> omega
      · have hPstep : ∀ j, j < n → q ≤ P (j + 1) - P j ∧ P (j + 1) - P j ≤ q + 1 := by
          intro j hj
          by_cases hjh : j < n / 2
          · have := hstep j hjh
            simp only [P, h, show j ≤ n / 2 by omega, show j + 1 ≤ n / 2 by omega, if_true]
            omega
          · have := hstep (n - 1 - j) (by omega)
            rw [show n - 1 - j + 1 = n - j by omega] at this
            by_cases hjh2 : j = n / 2
            · simp only [P, h, hjh2, show ¬ (n / 2 + 1 ≤ n / 2) by omega, if_false, Nat.le_refl,
                if_true, show n - (n / 2 + 1) = n - 1 - n / 2 by omega]
              rw [hjh2, show n - n / 2 = n / 2 by omega] at this
              omega
            · simp only [P, h, show ¬ (j ≤ n / 2) by omega, show ¬ (j + 1 ≤ n / 2) by omega,
                if_false, show n - (j + 1) = n - 1 - j by omega]
              omega
        refine ⟨?_, ?_, ?_, ?_, ?_⟩
        · simp [P, hp.first]
        · simp only [P, h, show ¬ (n ≤ n / 2) by omega, if_false, Nat.sub_self, hp.first]; omega
        · intro j hj; have := hPstep j hj; omega
        · intro j hj; have := hPstep j hj; omega
        · intro j hj; have := hPstep j hj; omega
      · intro j hj
        by_cases hjh : j ≤ n / 2
        · by_cases hjh2 : j = n / 2
          · rw [hjh2, show n - n / 2 = n / 2 by omega]; simp only [P, h, Nat.le_refl, if_true]; omega
          · simp only [P, h, hjh, show ¬ (n - j ≤ n / 2) by omega, if_true, if_false,
              show n - (n - j) = j by omega]
        · simp only [P, h, hjh, show (n - j ≤ n / 2) by omega, if_true, if_false]; omega
    · -- odd: one more iteration, the middle division
      have hn2 : (n : Int) - 2 * ((n / 2 : Nat) : Int) = 1 := by omega
      rw [hn2] at hlo' hhi' hge'
      have hcd : ceilDiv (isg + ieg - 2 * p (n / 2) + 1) 1 = isg + ieg - 2 * p (n / 2) + 1 := by
        unfold ceilDiv; rw [Int.ediv_one]; omega
      have e : extStep true isg ieg n (n / 2) st =
          .ok { is := isg + ieg - p (n / 2) + 1, imax := st.imax, ndmax := st.ndmax,
                tab := setTab st.tab (n / 2) (p (n / 2), isg + ieg - p (n / 2)) } := by
        unfold extStep
        have e1 : st.imax - p (n / 2) + 1 = isg + ieg - 2 * p (n / 2) + 1 := by
          rw [hp.imax_eq]; omega
        have e3 : (n - 1 - n / 2 > n / 2) = False := by apply eq_false; omega
        have e2 : st.ndmax - ((n / 2 : Nat) : Int) = 1 := by rw [hp.ndmax_eq]; omega
        simp only [hp.is_eq, if_pos (show n / 2 < (n - 1) / 2 + 1 by omega), e1, e2, hcd, e3,
          false_and, if_false]
        rw [if_neg (by omega), if_neg]
        · congr 2
          · omega
          · congr 2; omega
        · intro hh
          have : n = 1 := by omega
          apply hh.2
          have hf := hp.first
          rw [show n / 2 = 0 by omega, hf]
          omega
      refine ⟨{ is := isg + ieg - p (n / 2) + 1, imax := st.imax, ndmax := st.ndmax,
                tab := setTab st.tab (n / 2) (p (n / 2), isg + ieg - p (n / 2)) }, ?_, ?_, ?_, ?_⟩
      · rw [show (n + 1) / 2 = n / 2 + 1 by omega, forLoop_append, hst]
        simp only [Except.bind, Nat.zero_add, forLoop, e]
      · intro j hj
        by_cases hjm : j = n / 2
        · rw [hjm]
          simp only [setTab_self, P, h, Nat.le_refl, if_true, show ¬ (n / 2 + 1 ≤ n / 2) by omega,
            if_false, show n - (n / 2 + 1) = n / 2 by omega]
          congr 1; apply Prod.ext <;> simp <;> omega
        · simp only [setTab_ne _ _ _ _ hjm]
          by_cases hjh : j < n / 2
          · rw [htab j hjh]
            simp [P, h, show j ≤ n / 2 by omega, show j + 1 ≤ n / 2 by omega]
          · have := hmtab (n - 1 - j) (by omega)
            rw [show n - 1 - (n - 1 - j) = j by omega, show n - 1 - j + 1 = n - j by omega] at this
            rw [this]
            simp only [P, h, show ¬ (j ≤ n / 2) by omega, show ¬ (j + 1 ≤ n / 2) by omega,
              if_false, show n - (j + 1) = n - 1 - j by omega]
            congr 1; apply Prod.ext <;> simp <;> omega
      · have hPstep : ∀ j, j < n → 1 ≤ P (j + 1) - P j ∧ q - 1 ≤ P (j + 1) - P j ∧
            P (j + 1) - P j ≤ q + 1 := by
          intro j hj
          by_cases hjm : j = n / 2
          · rw [hjm]
            simp only [P, h, Nat.le_refl, if_true, show ¬ (n / 2 + 1 ≤ n / 2) by omega,
              if_false, show n - (n / 2 + 1) = n / 2 by omega]
            omega
          · by_cases hjh : j < n / 2
            · have := hstep j hjh
              simp only [P, h, show j ≤ n / 2 by omega, show j + 1 ≤ n / 2 by omega, if_true]
              omega
            · have := hstep (n - 1 - j) (by omega)
              rw [show n - 1 - j + 1 = n - j by omega] at this
              simp only [P, h, show ¬ (j ≤ n / 2) by omega, show ¬ (j + 1 ≤ n / 2) by omega,
                if_false, show n - (j + 1) = n - 1 - j by omega]
              omega
        refine ⟨?_, ?_, ?_, ?_, ?_⟩
        · simp [P, hp.first]
        · simp only [P, h, show ¬ (n ≤ n / 2) by omega, if_false, Nat.sub_self, hp.first]; omega
        · intro j hj; have := hPstep j hj; omega
        · intro j hj; have := hPstep j hj; omega
        · intro j hj; have := hPstep j hj; omega
      · intro j hj
        by_cases hjh : j ≤ n / 2
        · simp only [P, h, hjh, show ¬ (n - j ≤ n / 2) by omega, if_true, if_false,
              show n - (n - j) = j by omega]
        · simp only [P, h, hjh, show (n - j ≤ n / 2) by omega, if_true, if_false]; omega
  obtain ⟨st1, hst1, htab1, hcuts, hsym⟩ := hmid
  -- top half
  obtain ⟨st2, hst2, htab2⟩ := forLoop_inv (f := extStep true isg ieg n)
    (fun _ st => ∀ j, j < n → st.tab j = some (P j, P (j + 1) - 1)) (n - (n + 1) / 2) ((n + 1) / 2)
    st1 htab1 (fun k st hk hk' hI =>
      extStep_top isg ieg n P hcuts.last hcuts.mono k (by omega) (by omega) st hI)
  refine ⟨P, ?_, hcuts, hsym⟩
  unfold extLoop
  rw [hs, show forLoop (extStep true isg ieg n) 0 n = forLoop (extStep true isg ieg n) 0
    ((n + 1) / 2 + (n - (n + 1) / 2)) by congr 1; omega, forLoop_append, hst1]
  simp only [Except.bind, Nat.zero_add, hst2]
  exact readTab_ok _ _ n htab2

end Verif
