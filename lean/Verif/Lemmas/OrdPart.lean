import Verif.Lemmas.Partition
/-
Helper lemmas for Props/Decomposition.lean.
-/
namespace Verif
open Spec

/-! ### Facts about ordered partitions (specification level) -/

theorem Spec.OrderedPartition.cover {hi : Int} : ∀ {ext : List (Int × Int)} {lo : Int},
    OrderedPartition lo hi ext → ∀ p, lo ≤ p → p ≤ hi →
      ∃ (k : Nat) (x : Int × Int), ext[k]? = some x ∧ x.1 ≤ p ∧ p ≤ x.2 := by
  intro ext
  induction ext with
  | nil => intro lo h p h1 h2; simp [OrderedPartition] at h; omega
  | cons x t ih =>
    intro lo h p h1 h2
    obtain ⟨b, e⟩ := x
    simp only [OrderedPartition] at h
    by_cases hp : p ≤ e
    · exact ⟨0, (b, e), by simp, by simp; omega, hp⟩
    · obtain ⟨k, y, hk, hy⟩ := ih h.2.2 p (by omega) h2
      exact ⟨k + 1, y, by simpa using hk, hy⟩

theorem Spec.OrderedPartition.bounds {hi : Int} : ∀ {ext : List (Int × Int)} {lo : Int},
    OrderedPartition lo hi ext → ∀ x ∈ ext, lo ≤ x.1 ∧ x.1 ≤ x.2 ∧ x.2 ≤ hi := by
  intro ext
  induction ext with
  | nil => intro lo _ x hx; cases hx
  | cons y t ih =>
    intro lo h x hx
    obtain ⟨b, e⟩ := y
    simp only [OrderedPartition] at h
    have hle : e ≤ hi := by
      cases t with
      | nil => have := h.2.2; simp [OrderedPartition] at this; omega
      | cons z t' =>
        have h1 := ih h.2.2 z (by simp)
        omega
    cases hx with
    | head => exact ⟨by simp; omega, by simpa using h.2.1, hle⟩
    | tail _ hx => have := ih h.2.2 x hx; omega

theorem Spec.OrderedPartition.unique {hi : Int} : ∀ {ext : List (Int × Int)} {lo : Int},
    OrderedPartition lo hi ext → ∀ (p : Int) (k k' : Nat) (x x' : Int × Int),
      ext[k]? = some x → ext[k']? = some x' → x.1 ≤ p → p ≤ x.2 → x'.1 ≤ p → p ≤ x'.2 →
      k = k' := by
  intro ext
  induction ext with
  | nil => intro lo _ p k k' x x' h; simp at h
  | cons y t ih =>
    intro lo h p k k' x x' hk hk' h1 h2 h3 h4
    obtain ⟨b, e⟩ := y
    simp only [OrderedPartition] at h
    cases k with
    | zero =>
      cases k' with
      | zero => rfl
      | succ k' =>
        simp at hk hk'
        have := Spec.OrderedPartition.bounds h.2.2 x' (List.mem_of_getElem? hk')
        subst hk; simp at h1 h2; omega
    | succ k =>
      cases k' with
      | zero =>
        simp at hk hk'
        have := Spec.OrderedPartition.bounds h.2.2 x (List.mem_of_getElem? hk)
        subst hk'; simp at h3 h4; omega
      | succ k' =>
        simp at hk hk'
        rw [ih h.2.2 p k k' x x' hk hk' h1 h2 h3 h4]

theorem layoutSearch_spec (n : Nat) : ∀ g, 1 ≤ g →
    1 ≤ layoutSearch n g ∧ layoutSearch n g ≤ g ∧ n % layoutSearch n g = 0 ∧
      ∀ d, d ≤ g → 1 ≤ d → n % d = 0 → d ≤ layoutSearch n g := by
  intro g
  induction g with
  | zero => intro h; omega
  | succ g ih =>
    intro _
    unfold layoutSearch
    split
    · rename_i hnd
      have hg : 1 ≤ g := by
        rcases Nat.eq_zero_or_pos g with h0 | h0
        · subst h0; simp [Nat.mod_one] at hnd
        · exact h0
      obtain ⟨a, b, c, d⟩ := ih hg
      refine ⟨a, by omega, c, fun e he he1 hed => ?_⟩
      rcases Nat.lt_or_ge g e with h | h
      · have : e = g + 1 := by omega
        subst this; exact absurd hed hnd
      · exact d e h he1 hed
    · rename_i hd
      refine ⟨by omega, Nat.le_refl _, by simpa using hd, fun d hd _ _ => hd⟩

theorem length_flatMap_map {α β γ : Type} (f : α → β → γ) (xs : List β) (ys : List α) :
    (ys.flatMap (fun y => xs.map (f y))).length = ys.length * xs.length := by
  induction ys with
  | nil => simp
  | cons y ys ih => rw [List.flatMap_cons, List.length_append, ih]; simp [Nat.add_mul]; omega

theorem getElem?_flatMap_map {α β γ : Type} (f : α → β → γ) (xs : List β) :
    ∀ (ys : List α) (j i : Nat), i < xs.length →
      (ys.flatMap (fun y => xs.map (f y)))[j * xs.length + i]? =
        (do let y ← ys[j]?; let x ← xs[i]?; some (f y x)) := by
  intro ys
  induction ys with
  | nil => intro j i _; simp
  | cons y ys ih =>
    intro j i hi
    cases j with
    | zero =>
      simp [List.getElem?_append, hi]
    | succ j =>
      rw [List.flatMap_cons, List.getElem?_append_right (by simp [Nat.add_mul]; omega)]
      have e : (j + 1) * xs.length + i - (xs.map (f y)).length = j * xs.length + i := by
        simp [Nat.add_mul]; omega
      rw [e, ih j i hi]
      simp

theorem ordPart_append {hi : Int} : ∀ {a b : List (Int × Int)} {lo : Int},
    OrderedPartition lo hi (a ++ b) → a ≠ [] →
      ∃ x y, a.head? = some x ∧ a.getLast? = some y ∧ x.1 = lo ∧ lo ≤ y.2 ∧
        OrderedPartition (y.2 + 1) hi b := by
  intro a
  induction a with
  | nil => intro b lo _ h; exact absurd rfl h
  | cons z t ih =>
    intro b lo h _
    obtain ⟨p, e⟩ := z
    simp only [List.cons_append, OrderedPartition] at h
    cases t with
    | nil => exact ⟨(p, e), (p, e), by simp, by simp, h.1, by simp; omega, by simpa using h.2.2⟩
    | cons w t' =>
      obtain ⟨x, y, h1, h2, h3, h4, h5⟩ := ih (b := b) (lo := e + 1) h.2.2 (by simp)
      exact ⟨(p, e), y, by simp, by simpa using h2, h.1, by omega, h5⟩

theorem ioCoarsen_partition (step : Nat) (hs : 1 ≤ step) (hi : Int) :
    ∀ (m fuel : Nat) (l : List (Int × Int)) (lo : Int), l.length = m * step → m ≤ fuel →
      OrderedPartition lo hi l →
      ∃ io, ioCoarsen step fuel l = .ok io ∧ io.length = m ∧ OrderedPartition lo hi io ∧
        ∀ k, k < m → ∃ a b, l[k * step]? = some a ∧ l[k * step + step - 1]? = some b ∧
          io[k]? = some (a.1, b.2) := by
  intro m
  induction m with
  | zero =>
    intro fuel l lo hl _ hp
    have : l = [] := List.eq_nil_of_length_eq_zero (by omega)
    subst this
    refine ⟨[], ?_, rfl, hp, fun k hk => by omega⟩
    unfold ioCoarsen; rfl
  | succ m ih =>
    intro fuel l lo hl hf hp
    obtain ⟨fuel, rfl⟩ : ∃ f, fuel = f + 1 := ⟨fuel - 1, by omega⟩
    have hlen : step ≤ l.length := by rw [hl, Nat.add_mul]; omega
    cases l with
    | nil => simp at hlen; omega
    | cons x xs =>
      have hstep1 : step - 1 < (x :: xs).length := by omega
      obtain ⟨y, hy⟩ : ∃ y, (x :: xs)[step - 1]? = some y :=
        ⟨_, List.getElem?_eq_getElem hstep1⟩
      have hsplit : (x :: xs) = (x :: xs).take step ++ (x :: xs).drop step :=
        (List.take_append_drop _ _).symm
      have hp' := hp
      rw [hsplit] at hp'
      obtain ⟨a, b, h1, h2, h3, h4, h5⟩ := ordPart_append hp' (by
        intro h
        have := congrArg List.length h
        rw [List.length_take] at this
        simp at this; omega)
      have ha : a = x := by
        cases step with
        | zero => omega
        | succ s => simp at h1; exact h1.symm
      have hb : b = y := by
        rw [List.getLast?_eq_getElem?, List.length_take, Nat.min_eq_left hlen,
          List.getElem?_take_of_lt (by omega), hy] at h2
        exact (Option.some.inj h2).symm
      subst ha hb
      obtain ⟨io, hio, hiol, hiop, hiok⟩ := ih fuel ((a :: xs).drop step) (b.2 + 1)
        (by rw [List.length_drop, hl, Nat.add_mul]; omega) (by omega) h5
      refine ⟨(a.1, b.2) :: io, ?_, by simp [hiol], ?_, ?_⟩
      · unfold ioCoarsen
        simp only [hy, hio]
      · simp only [OrderedPartition]
        exact ⟨h3, by omega, hiop⟩
      · intro k hk
        cases k with
        | zero => exact ⟨a, b, by simp, by simpa using hy, by simp⟩
        | succ k =>
          obtain ⟨c, d, hc, hd, he⟩ := hiok k (by omega)
          rw [List.getElem?_drop] at hc hd
          refine ⟨c, d, ?_, ?_, by simpa using he⟩
          · rw [← hc]; congr 1; rw [Nat.add_mul]; omega
          · rw [← hd]; congr 1; rw [Nat.add_mul]; omega

end Verif
