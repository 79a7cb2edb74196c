import Verif.Model.Conserve
import Verif.Spec.Conserve
import Mathlib.Tactic.FieldSimp
import Mathlib.Data.Rat.Lemmas
import Mathlib.Algebra.Order.Field.Rat
/-
C47: a remap file written by fregrid gives back the exchange cells.
-/
namespace Verif
open Conserve

variable {K : Type} [Field K]

/-- A processor with its target compute domain (`isc..iec`, `jsc..jec`) and its exchange cells, whose
target indices are relative to the domain. -/
structure Part (K : Type) where
  isc : Nat
  iec : Nat
  jsc : Nat
  jec : Nat
  cells : List (XCell K)

/-- The target indices stay inside the domain. -/
def Part.Ok (p : Part K) : Prop := ∀ c ∈ p.cells, c.i2 + p.isc ≤ p.iec ∧ c.j2 + p.jsc ≤ p.jec

/-- The two domains have no target cell in common. -/
def Part.Disjoint (p q : Part K) : Prop :=
  ∀ i j : Nat, ¬ ((p.isc ≤ i ∧ i ≤ p.iec ∧ p.jsc ≤ j ∧ j ≤ p.jec) ∧
    (q.isc ≤ i ∧ i ≤ q.iec ∧ q.jsc ≤ j ∧ j ≤ q.jec))

/-- The file written by the processors. -/
def fileOf (parts : List (Part K)) : List (RemapRec K) :=
  writeRemap (parts.map fun p => (p.isc, p.jsc, p.cells))

theorem read_write (garea : K) (hg : garea ≠ 0) (isc iec jsc jec a b : Nat) (c : XCell K) :
    readRec garea isc iec jsc jec (writeRec a b c) =
      if isc ≤ c.i2 + a ∧ c.i2 + a ≤ iec ∧ jsc ≤ c.j2 + b ∧ c.j2 + b ≤ jec then
        some { c with i2 := c.i2 + a - isc, j2 := c.j2 + b - jsc }
      else none := by
  unfold readRec writeRec
  simp only []
  by_cases h : isc ≤ c.i2 + a ∧ c.i2 + a ≤ iec ∧ jsc ≤ c.j2 + b ∧ c.j2 + b ≤ jec
  · rw [if_pos h, if_pos (by omega)]
    have e1 : ((c.t1 : Int) + 1 - 1).toNat = c.t1 := by omega
    have e2 : ((c.i1 : Int) + 1 - 1).toNat = c.i1 := by omega
    have e3 : ((c.j1 : Int) + 1 - 1).toNat = c.j1 := by omega
    have e4 : ((c.i2 : Int) + a + 1 - 1 - isc).toNat = c.i2 + a - isc := by omega
    have e5 : ((c.j2 : Int) + b + 1 - 1 - jsc).toNat = c.j2 + b - jsc := by omega
    rw [e1, e2, e3, e4, e5, div_mul_cancel₀ _ hg]
  · rw [if_neg h, if_neg (by omega)]

/-- C47. Whatever the domain of the reader, it gets, in the order of the file, exactly the exchange cells
whose target cell lies in its domain, with all fields as written and target indices relative to its
domain. -/
theorem C47_any_reader (garea : K) (hg : garea ≠ 0) (parts : List (Part K)) (isc iec jsc jec : Nat) :
    readRemap garea isc iec jsc jec (fileOf parts) =
      parts.flatMap fun p => p.cells.filterMap fun c =>
        if isc ≤ c.i2 + p.isc ∧ c.i2 + p.isc ≤ iec ∧ jsc ≤ c.j2 + p.jsc ∧ c.j2 + p.jsc ≤ jec then
          some { c with i2 := c.i2 + p.isc - isc, j2 := c.j2 + p.jsc - jsc }
        else none := by
  unfold readRemap fileOf writeRemap
  induction parts with
  | nil => rfl
  | cons p parts ih =>
    rw [List.map_cons, List.flatMap_cons, List.flatMap_cons, List.filterMap_append, ih,
      List.filterMap_map]
    congr 1
    apply List.filterMap_congr
    intro c _
    exact read_write garea hg isc iec jsc jec p.isc p.jsc c

/-- C47. Read back with the decomposition it was written with, the file gives every processor its own
exchange cells, in their order. -/
theorem C47_round_trip (garea : K) (hg : garea ≠ 0) (before after : List (Part K)) (p : Part K)
    (hok : ∀ q ∈ before ++ p :: after, q.Ok) (hd : ∀ q ∈ before ++ after, p.Disjoint q) :
    readRemap garea p.isc p.iec p.jsc p.jec (fileOf (before ++ p :: after)) = p.cells := by
  rw [C47_any_reader garea hg, List.flatMap_append, List.flatMap_cons]
  have out : ∀ q ∈ before ++ after, (q.cells.filterMap fun c =>
        if p.isc ≤ c.i2 + q.isc ∧ c.i2 + q.isc ≤ p.iec ∧ p.jsc ≤ c.j2 + q.jsc ∧ c.j2 + q.jsc ≤ p.jec then
          some { c with i2 := c.i2 + q.isc - p.isc, j2 := c.j2 + q.jsc - p.jsc }
        else none) = [] := by
    intro q hq
    rw [List.filterMap_eq_nil_iff]
    intro c hc
    rw [if_neg]
    intro h
    have hqo : q.Ok := hok q (by
      rcases List.mem_append.1 hq with h | h
      · exact List.mem_append.2 (Or.inl h)
      · exact List.mem_append.2 (Or.inr (List.mem_cons_of_mem _ h)))
    have h2 := hqo c hc
    exact hd q hq (c.i2 + q.isc) (c.j2 + q.jsc)
      ⟨⟨h.1, h.2.1, h.2.2.1, h.2.2.2⟩, ⟨by omega, h2.1, by omega, h2.2⟩⟩
  have nil : ∀ l : List (Part K), (∀ q ∈ l, q ∈ before ++ after) → (l.flatMap fun q => q.cells.filterMap fun c =>
        if p.isc ≤ c.i2 + q.isc ∧ c.i2 + q.isc ≤ p.iec ∧ p.jsc ≤ c.j2 + q.jsc ∧ c.j2 + q.jsc ≤ p.jec then
          some { c with i2 := c.i2 + q.isc - p.isc, j2 := c.j2 + q.jsc - p.jsc }
        else none) = [] := by
    intro l hl
    rw [List.flatMap_eq_nil_iff]
    exact fun q hq => out q (hl q hq)
  rw [nil before (fun q h => List.mem_append.2 (Or.inl h)), nil after (fun q h => List.mem_append.2 (Or.inr h)),
    List.nil_append, List.append_nil]
  have hp : p.Ok := hok p (by simp)
  rw [List.filterMap_congr (g := some)]
  · exact List.filterMap_some
  · intro c hc
    have h2 := hp c hc
    rw [if_pos (by omega)]
    have e1 : c.i2 + p.isc - p.isc = c.i2 := by omega
    have e2 : c.j2 + p.jsc - p.jsc = c.j2 := by omega
    rw [e1, e2]

/-- C47. Processors with disjoint domains that together hold the whole target grid get every exchange cell
of the file, each exactly once: the lists they read have together as many cells. -/
theorem C47_no_loss (garea : K) (parts readers : List (Part K)) (hok : ∀ q ∈ parts, q.Ok)
    (hd : readers.Pairwise Part.Disjoint)
    (hcov : ∀ q ∈ parts, ∀ i j, q.isc ≤ i → i ≤ q.iec → q.jsc ≤ j → j ≤ q.jec →
      ∃ r ∈ readers, r.isc ≤ i ∧ i ≤ r.iec ∧ r.jsc ≤ j ∧ j ≤ r.jec) :
    ((readers.map fun r => (readRemap garea r.isc r.iec r.jsc r.jec (fileOf parts)).length).sum) =
      (parts.map fun p => p.cells.length).sum := by
  -- number of readers that take one record
  have one : ∀ (readers : List (Part K)) (i j : Nat), readers.Pairwise Part.Disjoint →
      (∃ r ∈ readers, r.isc ≤ i ∧ i ≤ r.iec ∧ r.jsc ≤ j ∧ j ≤ r.jec) →
      ((readers.map fun r => if r.isc ≤ i ∧ i ≤ r.iec ∧ r.jsc ≤ j ∧ j ≤ r.jec then 1 else 0).sum) = 1 := by
    intro readers i j
    induction readers with
    | nil => rintro _ ⟨r, hr, _⟩; cases hr
    | cons r rs ih =>
      intro hp hex
      rw [List.map_cons, List.sum_cons]
      have hp' := List.pairwise_cons.1 hp
      by_cases h : r.isc ≤ i ∧ i ≤ r.iec ∧ r.jsc ≤ j ∧ j ≤ r.jec
      · rw [if_pos h]
        have : (rs.map fun r => if r.isc ≤ i ∧ i ≤ r.iec ∧ r.jsc ≤ j ∧ j ≤ r.jec then 1 else 0).sum = 0 := by
          have hz := hp'.1
          clear ih hp hex hp'
          induction rs with
          | nil => rfl
          | cons q rs ihq =>
            rw [List.map_cons, List.sum_cons, if_neg (fun hq2 => hz q (by simp) i j ⟨h, hq2⟩), Nat.zero_add]
            exact ihq fun q' hq' => hz q' (List.mem_cons_of_mem _ hq')
        rw [this]
      · rw [if_neg h, Nat.zero_add]
        apply ih hp'.2
        obtain ⟨q, hq, hq2⟩ := hex
        rcases List.mem_cons.1 hq with rfl | hq
        · exact absurd hq2 h
        · exact ⟨q, hq, hq2⟩
  -- for any file
  have gen : ∀ f : List (RemapRec K), (∀ r ∈ f, ∃ i j : Nat, r.cell2 = ((i : Int) + 1, (j : Int) + 1) ∧
        ∃ p ∈ readers, p.isc ≤ i ∧ i ≤ p.iec ∧ p.jsc ≤ j ∧ j ≤ p.jec) →
      ((readers.map fun r => (readRemap garea r.isc r.iec r.jsc r.jec f).length).sum) = f.length := by
    intro f
    induction f with
    | nil =>
      intro _
      unfold readRemap
      simp
    | cons r f ih =>
      intro hf
      have ih' := ih fun q hq => hf q (List.mem_cons_of_mem _ hq)
      obtain ⟨i, j, hr, hex⟩ := hf r (by simp)
      have hsum : ∀ rs : List (Part K),
          ((rs.map fun p => (readRemap garea p.isc p.iec p.jsc p.jec (r :: f)).length).sum) =
          ((rs.map fun p => if p.isc ≤ i ∧ i ≤ p.iec ∧ p.jsc ≤ j ∧ j ≤ p.jec then 1 else 0).sum) +
          ((rs.map fun p => (readRemap garea p.isc p.iec p.jsc p.jec f).length).sum) := by
        intro rs
        induction rs with
        | nil => rfl
        | cons p rs ihr =>
          rw [List.map_cons, List.map_cons, List.map_cons, List.sum_cons, List.sum_cons, List.sum_cons, ihr]
          have : (readRemap garea p.isc p.iec p.jsc p.jec (r :: f)).length =
              (if p.isc ≤ i ∧ i ≤ p.iec ∧ p.jsc ≤ j ∧ j ≤ p.jec then 1 else 0) +
              (readRemap garea p.isc p.iec p.jsc p.jec f).length := by
            unfold readRemap
            rw [List.filterMap_cons]
            unfold readRec
            rw [hr]
            by_cases h : p.isc ≤ i ∧ i ≤ p.iec ∧ p.jsc ≤ j ∧ j ≤ p.jec
            · rw [if_pos h, if_pos (by simp only []; omega)]
              simp only [List.length_cons]
              omega
            · rw [if_neg h, if_neg (by simp only []; omega)]
              simp
          rw [this]
          omega
      rw [hsum, one readers i j hd hex, ih', List.length_cons]
      omega
  rw [gen]
  · unfold fileOf writeRemap
    rw [List.length_flatMap, List.map_map]
    congr 1
    apply List.map_congr_left
    intro p _
    simp
  · intro r hr
    unfold fileOf writeRemap at hr
    rw [List.mem_flatMap] at hr
    obtain ⟨a, ha, hr⟩ := hr
    obtain ⟨q, hq, rfl⟩ := List.mem_map.1 ha
    obtain ⟨c, hc, rfl⟩ := List.mem_map.1 hr
    have h2 := hok q hq c hc
    refine ⟨c.i2 + q.isc, c.j2 + q.jsc, ?_, hcov q hq _ _ (by omega) h2.1 (by omega) h2.2⟩
    simp [writeRec]

/-! ### Concrete case: two processors, read by two and by one. -/

def exParts : List (Part ℚ) :=
  [⟨0, 1, 0, 0, [⟨0, 0, 0, 1, 0, 5, 1, 2⟩]⟩, ⟨2, 3, 0, 0, [⟨1, 4, 2, 0, 0, 7, 0, 0⟩, ⟨0, 1, 1, 1, 0, 1, 0, 0⟩]⟩]

example : ∀ q ∈ exParts, q.Ok := by unfold Part.Ok; decide
example : exParts.Pairwise Part.Disjoint := by
  simp only [exParts, List.pairwise_cons, List.mem_singleton, forall_eq, Part.Disjoint]
  refine ⟨fun i j => by omega, ⟨by simp, List.Pairwise.nil⟩⟩
example : (readRemap 2 2 3 0 0 (fileOf exParts)).map (fun c => (c.t1, c.i1, c.j1, c.i2, c.j2, c.area)) =
    [(1, 4, 2, 0, 0, 7), (0, 1, 1, 1, 0, 1)] := by decide +kernel
example : (readRemap 2 0 3 0 0 (fileOf exParts)).map (fun c => (c.i2, c.area)) = [(1, 5), (2, 7), (3, 1)] := by
  decide +kernel

end Verif
